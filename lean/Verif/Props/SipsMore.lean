import Verif.Lemmas.SipsDigest
import Verif.Lemmas.SipsPeer
import Verif.Props.SipsMsg
/-!
# Properties of package `sips`: credentials, status texts, repeated and continued headers (C100 and C101)
-/
namespace Verif.Props
open Verif.Sips Verif.Str Verif.Spec Verif.Spec.Sips

/-! ## C100 -/

/-- C100: whatever the sender chooses - letter case of the scheme, blanks, tokens or quoted strings, backslashes - the
credentials are those meant. -/
theorem C100_digest (U : Unicode) (scheme : Bytes) (hs : SameText scheme (text "Digest ")) (ha : ∀ b ∈ scheme, b < 0x80)
    (ps : List DParam) (hne : ps ≠ []) (h : ∀ p ∈ ps, p.Fits) (hd : (ps.map DParam.name).Nodup) :
    newSIPAuth U (scheme ++ dwire ps) = .ok (ps.map fun p => (p.name, p.value.den)) := by
  have hl : scheme.length = 7 := by
    have := congrArg List.length hs
    simpa [show (text "Digest ").length = 7 by decide +kernel] using this
  have hlen : 1 ≤ (dwire ps).length := by
    cases ps with
    | nil => exact absurd rfl hne
    | cons p ps => simp [dwire, DParam.wire]; omega
  have hlow : toLower U scheme = b!"digest " := by
    rw [toLower_ascii U ha, show scheme.map lowerAscii = _ from hs]
    decide +kernel
  simp only [newSIPAuth]
  have g1 : goSlice (scheme ++ dwire ps) 0 7 = .ok scheme := goSlice_prefix scheme _ 7 hl
  have g2 : goSlice (scheme ++ dwire ps) 7 (scheme ++ dwire ps).length = .ok (dwire ps) := goSlice_suffix scheme _ 7 hl
  rw [if_pos (by simp [hl]; omega), g1, Res.bind_ok, hlow, if_pos rfl, g2, Res.bind_ok]
  exact parseArgsPairs_params ps h hd

/-- `digest username="ä\"\\b,\✓", qop=auth`. -/
def someDigest : List DParam :=
  [⟨[], text "username", .quoted [(false, 'ä'), (true, '"'), (true, '\\'), (false, 'b'), (false, ','), (true, '✓')]⟩,
   ⟨[0x20, 9], text "qop", .token (text "auth")⟩]

theorem someDigest_ok : ∀ p ∈ someDigest, p.Fits := by
  intro p hp
  simp only [someDigest, List.mem_cons, List.not_mem_nil, or_false] at hp
  rcases hp with rfl | rfl
  · exact ⟨by simp, ⟨argText_ascii (by simp only [Printable]; decide +kernel) (by decide +kernel) (by decide +kernel), by decide +kernel, by decide +kernel⟩,
      by simp [DVal.Fits]⟩
  · exact ⟨by simp, ⟨argText_ascii (by simp only [Printable]; decide +kernel) (by decide +kernel) (by decide +kernel), by decide +kernel, by decide +kernel⟩,
      ⟨by decide +kernel, argText_ascii (by simp only [Printable]; decide +kernel) (by decide +kernel) (by decide +kernel)⟩⟩

example : text "DIGEST " ++ dwire someDigest = text "DIGEST username=\"ä\\\"\\\\b,\\✓\", \tqop=auth" := by decide +kernel
example (U : Unicode) : newSIPAuth U (text "DIGEST " ++ dwire someDigest) =
    .ok [(text "username", text "ä\"\\b,✓"), (text "qop", text "auth")] :=
  (C100_digest U (text "DIGEST ") (by simp only [SameText]; decide +kernel) (by decide +kernel) someDigest (by simp [someDigest])
    someDigest_ok (by decide +kernel)).trans (by congr 1; decide +kernel)

theorem chr_inj {b c : UInt8} {d : Char} (h : Char.ofNat b.toNat = d) (hd : d.toNat = c.toNat) : b = c :=
  UInt8.toNat_inj.1 (by rw [← chr_toNat (b := b), h, hd])

/-- The choices `CommaString` makes for an entry. -/
def commaParam (blanks : Bytes) (e : Bytes × Bytes) : DParam := ⟨blanks, e.1, .quoted (e.2.map fun b => (b == 0x22 || b == 0x5c, Char.ofNat b.toNat))⟩

theorem commaParam_den (bl : Bytes) (e : Bytes × Bytes) (h : ∀ b ∈ e.2, Printable b) :
    ((commaParam bl e).name, (commaParam bl e).value.den) = e := by
  simp only [commaParam, DVal.den, List.map_map]
  congr 1
  exact utf8_asChars e.2 fun b hb => Printable.ascii (h b hb)

theorem quote_wire (U : Unicode) (v : Bytes) (h : ∀ b ∈ v, Printable b) :
    quote U v = (DVal.quoted (v.map fun b => (b == 0x22 || b == 0x5c, Char.ofNat b.toNat))).wire := by
  have ha : isAscii v = true := (isAscii_iff v).2 fun b hb => Printable.ascii (h b hb)
  rw [quote, if_pos ha]
  simp only [DVal.wire, List.map_map]
  congr 3
  refine List.map_congr_left fun b hb => ?_
  obtain ⟨h1, h2⟩ := h b hb
  simp only [Function.comp, ascii_utf8 (Printable.ascii (h b hb))]
  by_cases hq : b = 0x22 ∨ b = 0x5c
  · rcases hq with rfl | rfl <;> simp [quoteByte]
  · have h3 : b < 0x7f := by
      rw [UInt8.lt_iff_toNat_lt]
      have : b.toNat ≤ 0x7e := h2
      have e : (0x7f : UInt8).toNat = 0x7f := rfl
      omega
    have h1 : b ≠ 0x22 := fun e => hq (.inl e)
    have h4 : b ≠ 0x5c := fun e => hq (.inr e)
    simp [quoteByte, h1, h4, h3, show (0x20 : UInt8) ≤ b from by assumption]

theorem commaString_wire (U : Unicode) (e : Bytes × Bytes) (es : Args) (h : ∀ x ∈ e :: es, ∀ b ∈ x.2, Printable b) :
    commaString U (e :: es) = .ok (dwire (commaParam [] e :: es.map (commaParam [0x20]))) := by
  have key : ∀ (es : Args), (∀ x ∈ es, ∀ b ∈ x.2, Printable b) →
      (es.map fun e => e.1 ++ b!"=" ++ quote U e.2 ++ b!", ").flatten =
      ((es.map (commaParam [])).map fun p => p.wire ++ b!", ").flatten := by
    intro es hes
    rw [List.map_map]
    congr 1
    refine List.map_congr_left fun x hx => ?_
    simp [quote_wire U x.2 (hes x hx), commaParam, DParam.wire]
  have shift : ∀ (es : Args) (e : Bytes × Bytes), (((e :: es).map (commaParam [])).map fun p => p.wire ++ b!", ").flatten =
      dwire (commaParam [] e :: es.map (commaParam [0x20])) ++ b!", " := by
    intro es
    induction es with
    | nil => intro e; simp [dwire]
    | cons x es ih =>
      intro e
      rw [List.map_cons, List.map_cons, List.flatten_cons, ih x]
      simp [dwire, commaParam, DParam.wire]
  simp only [commaString]
  rw [if_neg (by simp), key _ h, shift]
  have := goSlice_prefix (dwire (commaParam [] e :: es.map (commaParam [0x20]))) b!", " _ rfl
  rw [← this]
  congr 1
  simp

/-- C100: the credentials printed by `CommaString` are read back, in whatever order the map is visited. -/
theorem C100_comma_round_trip (U : Unicode) (a o : Args) (ho : o.Perm a) (hne : a ≠ []) (hd : (a.map Prod.fst).Nodup)
    (hk : ∀ e ∈ a, ArgKey e.1) (hv : ∀ e ∈ a, ∀ b ∈ e.2, Printable b) :
    ∃ s r, commaString U o = .ok s ∧ newSIPAuth U (text "Digest " ++ s) = .ok r ∧ r.Perm a ∧ ∀ k, Args.get r k = Args.get a k := by
  have hk' : ∀ e ∈ o, ArgKey e.1 := fun e he => hk e (ho.mem_iff.1 he)
  have hv' : ∀ e ∈ o, ∀ b ∈ e.2, Printable b := fun e he => hv e (ho.mem_iff.1 he)
  have hd' : (o.map Prod.fst).Nodup := (ho.map Prod.fst).nodup_iff.2 hd
  cases o with
  | nil => exact absurd ho.symm.eq_nil hne
  | cons e es =>
    refine ⟨_, _, commaString_wire U e es hv', C100_digest U (text "Digest ") rfl (by decide +kernel) _ (by simp) ?_ ?_, ?_, ?_⟩
    · intro p hp
      have fits : ∀ bl : Bytes, (∀ b ∈ bl, b = 0x20 ∨ b = 9) → ∀ x ∈ e :: es, (commaParam bl x).Fits := by
        intro bl hbl x hx
        refine ⟨hbl, hk' x hx, ?_⟩
        simp only [commaParam, DVal.Fits, List.mem_map]
        rintro c ⟨b, hb, rfl⟩
        intro hf
        have hf : b ≠ 0x22 ∧ b ≠ 0x5c := by simpa using hf
        exact ⟨fun e => hf.1 (chr_inj e rfl), fun e => hf.2 (chr_inj e rfl)⟩
      rcases List.mem_cons.1 hp with rfl | hp
      · exact fits [] (by simp) e (by simp)
      · obtain ⟨x, hx, rfl⟩ := List.mem_map.1 hp
        exact fits [0x20] (by simp) x (by simp [hx])
    · have : (commaParam [] e :: es.map (commaParam [0x20])).map DParam.name = (e :: es).map Prod.fst := by
        simp [commaParam]
      rw [this]; exact hd'
    · have : (commaParam [] e :: es.map (commaParam [0x20])).map (fun p => (p.name, p.value.den)) = e :: es := by
        rw [List.map_cons, commaParam_den [] e (hv' e (by simp)), List.map_map]
        congr 1
        exact (List.map_congr_left fun x hx => commaParam_den [0x20] x (hv' x (by simp [hx]))).trans (List.map_id' es)
      rw [this]; exact ho
    · intro k
      have : (commaParam [] e :: es.map (commaParam [0x20])).map (fun p => (p.name, p.value.den)) = e :: es := by
        rw [List.map_cons, commaParam_den [] e (hv' e (by simp)), List.map_map]
        congr 1
        exact (List.map_congr_left fun x hx => commaParam_den [0x20] x (hv' x (by simp [hx]))).trans (List.map_id' es)
      rw [this, Args.get, Args.get, mget_perm hd ho k]

example (U : Unicode) : ∃ s r, commaString U [(text "realm", text "a \"b\", c"), (text "nc", [])] = .ok s ∧
    newSIPAuth U (text "Digest " ++ s) = .ok r ∧ r.Perm [(text "nc", []), (text "realm", text "a \"b\", c")] ∧
    ∀ k, Args.get r k = Args.get [(text "nc", []), (text "realm", text "a \"b\", c")] k :=
  C100_comma_round_trip U [(text "nc", []), (text "realm", text "a \"b\", c")] [(text "realm", text "a \"b\", c"), (text "nc", [])]
    (List.Perm.swap _ _ _) (by simp) (by decide +kernel)
    (by
      intro e he
      simp only [List.mem_cons, List.not_mem_nil, or_false] at he
      rcases he with rfl | rfl
      · exact ⟨argText_ascii (by simp only [Printable]; decide +kernel) (by decide +kernel) (by decide +kernel), by decide +kernel, by decide +kernel⟩
      · exact ⟨argText_ascii (by simp only [Printable]; decide +kernel) (by decide +kernel) (by decide +kernel), by decide +kernel, by decide +kernel⟩)
    (by simp only [Printable]; decide +kernel)

/-- What `strconv.Quote` writes for a character, as characters with and without a backslash. -/
def quoteChoice (b : UInt8) : List (Bool × UInt8) :=
  match quoteByte b with
  | [c] => [(false, c)]
  | _ :: r => (r.take 1).map (fun c => (true, c)) ++ (r.drop 1).map (fun c => (false, c))
  | [] => []

theorem quoteChoice_ok (b : UInt8) (h : b < 0x80) :
    ((quoteChoice b).map fun c => if c.1 then [0x5c, c.2] else [c.2]).flatten = quoteByte b ∧
    (∀ c ∈ quoteChoice b, Printable c.2 ∧ (c.1 = false → c.2 ≠ 0x22 ∧ c.2 ≠ 0x5c)) := by
  have : ∀ n : Fin 128, ((quoteChoice (UInt8.ofNat n.val)).map fun c => if c.1 then [0x5c, c.2] else [c.2]).flatten = quoteByte (UInt8.ofNat n.val) ∧
    (∀ c ∈ quoteChoice (UInt8.ofNat n.val), (0x20 ≤ c.2 ∧ c.2 ≤ 0x7e) ∧ (c.1 = false → c.2 ≠ 0x22 ∧ c.2 ≠ 0x5c)) := by decide +kernel
  have := this ⟨b.toNat, h⟩
  simpa [Printable] using this

/-- C100 fails for every value with a control character: it comes back as another text. -/
theorem C100_control_refuted (U : Unicode) (k v : Bytes) (hk : ArgKey k) (ha : ∀ b ∈ v, b < 0x80) (hv : ∃ b ∈ v, ¬ Printable b) :
    ∃ s w, commaString U [(k, v)] = .ok s ∧ newSIPAuth U (text "Digest " ++ s) = .ok [(k, w)] ∧ w ≠ v := by
  let p : DParam := ⟨[], k, .quoted ((v.map quoteChoice).flatten.map fun c => (c.1, Char.ofNat c.2.toNat))⟩
  have hch : ∀ c ∈ (v.map quoteChoice).flatten, Printable c.2 ∧ (c.1 = false → c.2 ≠ 0x22 ∧ c.2 ≠ 0x5c) := by
    intro c hc
    obtain ⟨l, hl, hc⟩ := List.mem_flatten.1 hc
    obtain ⟨b, hb, rfl⟩ := List.mem_map.1 hl
    exact (quoteChoice_ok b (ha b hb)).2 c hc
  have hfit : p.Fits := by
    refine ⟨by simp [p], hk, fun c hc => ?_⟩
    obtain ⟨x, hx, rfl⟩ := List.mem_map.1 hc
    intro hf
    obtain ⟨h1, h2⟩ := (hch x hx).2 hf
    exact ⟨fun e => h1 (chr_inj e rfl), fun e => h2 (chr_inj e rfl)⟩
  have hwire : ((v.map quoteChoice).flatten.map fun c => if c.1 then 0x5c :: utf8 [Char.ofNat c.2.toNat] else utf8 [Char.ofNat c.2.toNat]) =
      (v.map quoteChoice).flatten.map fun c => if c.1 then [0x5c, c.2] else [c.2] :=
    List.map_congr_left fun c hc => by rw [ascii_utf8 (Printable.ascii (hch c hc).1)]
  have hden : p.value.den = (v.map quoteChoice).flatten.map Prod.snd := by
    show utf8 _ = _
    rw [List.map_map]
    have := utf8_asChars ((v.map quoteChoice).flatten.map Prod.snd) (by
      intro b hb
      obtain ⟨c, hc, rfl⟩ := List.mem_map.1 hb
      exact Printable.ascii (hch c hc).1)
    rw [asChars, List.map_map] at this
    exact this
  have hw : quote U v = p.value.wire := by
    rw [quote, if_pos ((isAscii_iff v).2 ha)]
    simp only [p, DVal.wire]
    rw [List.map_map, show (List.map ((fun c : Bool × Char => if c.1 then 0x5c :: utf8 [c.2] else utf8 [c.2]) ∘ fun c : Bool × UInt8 => (c.1, Char.ofNat c.2.toNat)) (v.map quoteChoice).flatten) = _ from hwire, List.map_flatten, List.map_map, List.flatten_flatten, List.map_map]
    congr 3
    exact List.map_congr_left fun b hb => (quoteChoice_ok b (ha b hb)).1.symm
  refine ⟨dwire [p], p.value.den, ?_, ?_, ?_⟩
  · simp only [commaString]
    have e : ([(k, v)].map fun e => e.1 ++ b!"=" ++ quote U e.2 ++ b!", ").flatten = dwire [p] ++ b!", " := by
      simp [dwire, DParam.wire, hw, p]
    rw [if_neg (by simp), e]
    have := goSlice_prefix (dwire [p]) b!", " _ rfl
    rw [← this]
    congr 1
    simp
  · exact C100_digest U (text "Digest ") rfl (by decide +kernel) [p] (by simp) (by simpa using hfit) (by simp)
  · rintro e
    obtain ⟨b, hb, hn⟩ := hv
    rw [← e, hden] at hb
    obtain ⟨c, hc, rfl⟩ := List.mem_map.1 hb
    exact hn (hch c hc).1

example (U : Unicode) : ∃ s w, commaString U [(text "tag", [97, 10])] = .ok s ∧
    newSIPAuth U (text "Digest " ++ s) = .ok [(text "tag", w)] ∧ w ≠ [97, 10] :=
  C100_control_refuted U (text "tag") [97, 10] someKey_ok (by decide) ⟨10, by simp, by simp [Printable]⟩


/-! ## C101 -/

/-- What `Parse` has to make of header fields: every name, in any letter case, finds all the values sent under it, in their
order, and the addresses are those of the first field of their name. -/
structure Received (U : Unicode) (m : Sip) (fs : List HField) : Prop where
  all : ∀ n, (∀ b ∈ n, b < 0x80) → getHeader U m.hdr n = fieldValues fs n
  first : ∀ n, (∀ b ∈ n, b < 0x80) → getFirstHeader U m.hdr n = (fieldValues fs n).head?.getD []
  from_ : ∃ u, newSIPUser ((fieldValues fs (text "from")).head?.getD []) = .ok u ∧ m.fromU = some u
  to_ : ∃ u, newSIPUser ((fieldValues fs (text "to")).head?.getD []) = .ok u ∧ m.toU = some u
  contact : ∃ u, newSIPUser ((fieldValues fs (text "contact")).head?.getD []) = .ok u ∧ m.contact = some u
  via : ∃ u, newSIPVia ((fieldValues fs (text "via")).head?.getD []) = .ok u ∧ m.via = some u
  cseq : m.cseq = some (newSIPCseq ((fieldValues fs (text "cseq")).head?.getD []))

/-- Fields that `Parse` accepts: well formed, on lines that fit the reader, with addresses without empty arguments and a
decimal content length. -/
structure Acceptable (size : Nat) (fs : List HField) : Prop where
  fits : ∀ f ∈ fs, f.Fits
  short : ∀ l ∈ fieldLines fs, l.length < size
  addresses : ∀ n ∈ [text "from", text "to", text "contact", text "via"], ∀ v, (fieldValues fs n).head? = some v →
    ValuesPresent v
  length : ∃ d n, (fieldValues fs (text "content-length")).head? = some d ∧ IsDecimal d n ∧ n < 2 ^ 63

/-- The lines of a header section hold no LF, are not blank and fit the buffer. -/
theorem field_lines (size : Nat) (l0 : Bytes) (cr0 : Bool) (fs : List HField) (hfit : ∀ f ∈ fs, f.Fits) (hshort : ∀ l ∈ fieldLines fs, l.length < size)
    (hl0 : ∀ b ∈ l0, b ≠ 13 ∧ b ≠ 10) (hne : l0 ≠ []) (hlen0 : l0.length + 1 < size) :
    ∀ l ∈ (l0 ++ lineEnd cr0) :: fieldLines fs, (10 : UInt8) ∉ l ∧ trim crlf l ≠ [] ∧ l.length < size := by
  have hce : ∀ c : Bool, (lineEnd c).length ≤ 1 := by intro c; cases c <;> simp [lineEnd]
  have t0 := trim_of_chars cr0 hl0
  intro l hl
  rcases List.mem_cons.1 hl with rfl | hl
  · refine ⟨?_, by rw [t0]; exact hne, ?_⟩
    · rw [List.mem_append]
      rintro (h | h)
      · exact (hl0 _ h).2 rfl
      · exact lf_end _ h
    · have := hce cr0
      simp; omega
  · refine ⟨?_, ?_, hshort l hl⟩
    all_goals
      rw [fieldLines, List.mem_flatten] at hl
      obtain ⟨ll, h1, h2⟩ := hl
      obtain ⟨f, hf, rfl⟩ := List.mem_map.1 h1
      have hff := hfit f hf
    · rw [HField.lines, List.mem_cons, List.mem_map] at h2
      rcases h2 with rfl | ⟨c, hc, rfl⟩
      · rw [List.mem_append]
        rintro (h | h)
        · exact (fline_chars hff _ h).2 rfl
        · exact lf_end _ h
      · rw [Cont.line, List.mem_append]
        rintro (h | h)
        · exact (cline_chars (hff.conts c hc) _ h).2 rfl
        · exact lf_end _ h
    · have : trim crlf l ∈ trimmed f := by
        rw [← map_trim_lines hff]; exact List.mem_map.2 ⟨l, h2, rfl⟩
      rw [trimmed, List.mem_cons, List.mem_map] at this
      rcases this with h | ⟨c, hc, h⟩
      · rw [h, fline]; simp
      · rw [← h, cline]
        have := (hff.conts c hc).blanks.1
        simp [this]

/-- Message read from a connection into an object whose header map already holds the values `ds`. -/
theorem receiveFrom (U : Unicode) (size : Nat) (hsize : 2 ≤ size) (r : Rd) (hr : r.Ok) (hcap : r.cap = size) (l0 : Bytes) (s s0 : Sip) (h0 : Hdr)
    (ds : List (Bytes × Bytes)) (hds : Shows h0 ds) (cr0 cr : Bool) (fs : List HField) (hfit : ∀ f ∈ fs, f.Fits)
    (hshort : ∀ l ∈ fieldLines fs, l.length < size)
    (haddr : ∀ n ∈ [text "from", text "to", text "contact", text "via"], Good ((under' (ds ++ pairs fs) n).head?.getD []))
    (d : Bytes) (n : Int) (hd : (under' (ds ++ pairs fs) (text "content-length")).head? = some d) (hat : atoi d = .ok n)
    (body : Bytes) (hbody : r.final = .eof ∨ n ≤ ((lineEnd cr).length + 1 + body.length : Nat)) (hall : r.all = lines ((l0 ++ lineEnd cr0) :: fieldLines fs) ++ lineEnd cr ++ 10 :: body)
    (hfirst : parseFirstLine U l0 s = (.ok (), s0)) (h0' : s0.headers = some h0)
    (hl0 : ∀ b ∈ l0, b ≠ 13 ∧ b ≠ 10) (hne : l0 ≠ []) (hlen0 : l0.length + 1 < size) :
    ∃ h' last c f t v k r', Shows h' (ds ++ pairs fs) ∧ r'.all = body.drop k ∧ r'.Ok ∧ r'.cap = size ∧ r'.final = r.final ∧
      (n ≤ ((lineEnd cr).length + 1 : Nat) → k = 0) ∧
      newSIPUser ((under' (ds ++ pairs fs) (text "contact")).head?.getD []) = .ok c ∧
      newSIPUser ((under' (ds ++ pairs fs) (text "from")).head?.getD []) = .ok f ∧
      newSIPUser ((under' (ds ++ pairs fs) (text "to")).head?.getD []) = .ok t ∧
      newSIPVia ((under' (ds ++ pairs fs) (text "via")).head?.getD []) = .ok v ∧
      parse U s r =
        (.ok (), { s0 with headers := some h', last := last, contact := some c, fromU := some f, toU := some t, via := some v,
                           cseq := some (newSIPCseq ((under' (ds ++ pairs fs) (text "cseq")).head?.getD [])),
                           contents := lines ((l0 ++ lineEnd cr0) :: fieldLines fs), payload := lineEnd cr ++ 10 :: body.take k }, r') := by
  subst hcap
  have hall' : r.all = joinLines ((l0 ++ lineEnd cr0) :: fieldLines fs) ++ (lineEnd cr ++ 10 :: body) := by
    rw [← List.append_assoc]; exact hall
  have hce : ∀ c : Bool, (lineEnd c).length ≤ 1 := by intro c; cases c <;> simp [lineEnd]
  have t0 := trim_of_chars cr0 hl0
  have hls := field_lines r.cap l0 cr0 fs hfit hshort hl0 hne hlen0
  obtain ⟨h', last, g1, g2⟩ := runLines_fields U fs ds s0 h0 h0' hds hfit
  have hrun : runLines U true (((l0 ++ lineEnd cr0) :: fieldLines fs).map (trim crlf)) s =
      (.ok (), { s0 with headers := some h', last := last }) := by
    have hp : parseLine U true l0 s = (.ok (), s0) := hfirst
    rw [List.map_cons, t0, runLines, hp]
    exact g1
  have hget : ∀ n, (∀ b ∈ n, b < 0x80 ∧ ¬ (0x41 ≤ b ∧ b ≤ 0x5a)) → getFirstHeader U h' n = (under' (ds ++ pairs fs) n).head?.getD [] := by
    intro n hn
    have := (g2.getHeader U n).2
    rw [toLower_keep U hn] at this
    exact this
  have e1 : text "from" = b!"from" := by decide +kernel
  have e2 : text "to" = b!"to" := by decide +kernel
  have e3 : text "contact" = b!"contact" := by decide +kernel
  have e4 : text "via" = b!"via" := by decide +kernel
  have e5 : text "cseq" = b!"cseq" := by decide +kernel
  have e6 : text "content-length" = b!"content-length" := by decide +kernel
  obtain ⟨f, hf⟩ := newSIPUser_vp (haddr (text "from") (by simp))
  obtain ⟨t, ht⟩ := newSIPUser_vp (haddr (text "to") (by simp))
  obtain ⟨c, hc⟩ := newSIPUser_vp (haddr (text "contact") (by simp))
  obtain ⟨v, hv⟩ := newSIPVia_vp (haddr (text "via") (by simp))
  have hfill := fillHeader_ok U { s0 with headers := some h', last := last } c f t v
    (by show getSIPContact U h' = _; rw [getSIPContact, hget _ (by decide), ← e3]; exact hc)
    (by show getSIPFrom U h' = _; rw [getSIPFrom, hget _ (by decide), ← e1]; exact hf)
    (by show getSIPTo U h' = _; rw [getSIPTo, hget _ (by decide), ← e2]; exact ht)
    (by show getSIPVia U h' = _; rw [getSIPVia, hget _ (by decide), ← e4]; exact hv)
  have hlen : getContentLength U h' = .ok n := by
    rw [getContentLength, hget _ (by decide), ← e6, hd]
    exact hat
  obtain ⟨r1, k1, k2, k2', k4, k5⟩ := parse_blank U s _ s _ hr _ (lineEnd cr) body hall'
    (by cases cr <;> simp [lineEnd]) (by have := hce cr; omega) hls hrun
  have hcs : getSIPCseq U h' = newSIPCseq ((under' (ds ++ pairs fs) (text "cseq")).head?.getD []) := by
    rw [getSIPCseq, hget _ (by decide), e5]
  have hbl : (((lineEnd cr ++ [10]).length : Nat) : Int) = ((lineEnd cr).length + 1 : Nat) := by simp
  rcases finish_cases U (joinLines ((l0 ++ lineEnd cr0) :: fieldLines fs)) (lineEnd cr ++ [10]) _ _ r1 k1 hfill with
    ⟨sz, k, r', k6, -, k3, k7, -, k8, -⟩ | ⟨sz, r', k6, k7, k3, -⟩ | ⟨e, k3, -⟩
  · obtain ⟨m1, m2, m3⟩ := finish_rd U _ _ _ _ r1 r' k1 k3
    have k6 : getContentLength U h' = .ok sz := k6
    rw [hlen] at k6
    simp only [Res.ok.injEq] at k6
    refine ⟨h', last, c, f, t, v, k, r', g2, by rw [k7, k2], m1, by rw [m2, k2'], by rw [m3, k4], fun h => k8 (by omega), hc, hf, ht, hv, ?_⟩
    rw [k5, k3, k2, ← hcs]
    simp [Sip.hdr, lines, joinLines]
  · have k6 : getContentLength U h' = .ok sz := k6
    rw [hlen] at k6
    simp only [Res.ok.injEq] at k6
    rw [k4] at k3
    rcases hbody with hbody | hbody
    · exact absurd hbody k3
    · exact absurd (by rw [k2]; omega) k7
  · have k3 : getContentLength U h' = .err e := k3
    rw [hlen] at k3
    simp at k3

/-- Message parsed into an object whose header map already holds the values `ds`. -/
theorem receiveInto (U : Unicode) (size : Nat) (hsize : 2 ≤ size) (chunks : List Bytes) (l0 : Bytes) (s s0 : Sip) (h0 : Hdr)
    (ds : List (Bytes × Bytes)) (hds : Shows h0 ds) (cr0 cr : Bool) (fs : List HField) (hfit : ∀ f ∈ fs, f.Fits)
    (hshort : ∀ l ∈ fieldLines fs, l.length < size)
    (haddr : ∀ n ∈ [text "from", text "to", text "contact", text "via"], Good ((under' (ds ++ pairs fs) n).head?.getD []))
    (hclen : ∃ d n, (under' (ds ++ pairs fs) (text "content-length")).head? = some d ∧ IsDecimal d n ∧ n < 2 ^ 63)
    (body : Bytes) (hall : chunks.flatten = lines ((l0 ++ lineEnd cr0) :: fieldLines fs) ++ lineEnd cr ++ 10 :: body)
    (hfirst : parseFirstLine U l0 s = (.ok (), s0)) (h0' : s0.headers = some h0)
    (hl0 : ∀ b ∈ l0, b ≠ 13 ∧ b ≠ 10) (hne : l0 ≠ []) (hlen0 : l0.length + 1 < size) :
    ∃ h' last c f t v k r', Shows h' (ds ++ pairs fs) ∧
      newSIPUser ((under' (ds ++ pairs fs) (text "contact")).head?.getD []) = .ok c ∧
      newSIPUser ((under' (ds ++ pairs fs) (text "from")).head?.getD []) = .ok f ∧
      newSIPUser ((under' (ds ++ pairs fs) (text "to")).head?.getD []) = .ok t ∧
      newSIPVia ((under' (ds ++ pairs fs) (text "via")).head?.getD []) = .ok v ∧
      parse U s ⟨[], chunks, size, .eof⟩ =
        (.ok (), { s0 with headers := some h', last := last, contact := some c, fromU := some f, toU := some t, via := some v,
                           cseq := some (newSIPCseq ((under' (ds ++ pairs fs) (text "cseq")).head?.getD [])),
                           contents := lines ((l0 ++ lineEnd cr0) :: fieldLines fs), payload := lineEnd cr ++ 10 :: body.take k }, r') := by
  obtain ⟨d, n, hd, hdec, hn⟩ := hclen
  obtain ⟨h', last, c, f, t, v, k, r', g1, -, -, -, -, -, g2⟩ := receiveFrom U size hsize ⟨[], chunks, size, .eof⟩ ⟨by show 0 < size; omega, by simp⟩ rfl
    l0 s s0 h0 ds hds cr0 cr fs hfit hshort haddr d n hd (atoi_decimal hdec hn) body (.inl rfl) (by rw [Rd.all, List.nil_append]; exact hall) hfirst h0' hl0 hne hlen0
  exact ⟨h', last, c, f, t, v, k, r', g1, g2⟩

theorem receive (U : Unicode) (size : Nat) (hsize : 2 ≤ size) (chunks : List Bytes) (l0 : Bytes) (s0 : Sip) (cr0 cr : Bool) (fs : List HField)
    (ha : Acceptable size fs) (body : Bytes) (hall : chunks.flatten = lines ((l0 ++ lineEnd cr0) :: fieldLines fs) ++ lineEnd cr ++ 10 :: body)
    (hfirst : parseFirstLine U l0 Sip.new = (.ok (), s0)) (h0 : s0.headers = some [])
    (hl0 : ∀ b ∈ l0, b ≠ 13 ∧ b ≠ 10) (hne : l0 ≠ []) (hlen0 : l0.length + 1 < size) :
    ∃ m r', parse U Sip.new ⟨[], chunks, size, .eof⟩ = (.ok (), m, r') ∧ Received U m fs ∧ (∃ h, m.headers = some h ∧ Shows h (pairs fs)) ∧
      ∃ h l c f t v p q x, m = { s0 with headers := h, last := l, contact := c, fromU := f, toU := t, via := v, payload := p, cseq := q, contents := x } := by
  have key : ∀ n, n.map lowerAscii = n → under' ([] ++ pairs fs) n = fieldValues fs n := by
    intro n hn
    rw [List.nil_append, ← fieldValues_eq, hn]
  have k1 := key (text "from") (by decide +kernel)
  have k2 := key (text "to") (by decide +kernel)
  have k3 := key (text "contact") (by decide +kernel)
  have k4 := key (text "via") (by decide +kernel)
  have k5 := key (text "cseq") (by decide +kernel)
  have k6 := key (text "content-length") (by decide +kernel)
  obtain ⟨h', last, c, f, t, v, k, r', g1, g2, g3, g4, g5, g6⟩ := receiveInto U size hsize chunks l0 Sip.new s0 [] [] shows_nil cr0 cr fs
    ha.fits ha.short
    (by
      intro n hn
      have hlow : ∀ n ∈ [text "from", text "to", text "contact", text "via"], n.map lowerAscii = n := by decide +kernel
      rw [key n (hlow n hn)]
      cases hv : (fieldValues fs n).head? with
      | none => exact good_nil
      | some v => exact ha.addresses n hn v hv)
    (by rw [k6]; exact ha.length) body hall hfirst h0 hl0 hne hlen0
  rw [k1] at g3; rw [k2] at g4; rw [k3] at g2; rw [k4] at g5
  have hget : ∀ n, (∀ b ∈ n, b < 0x80) → getHeader U h' n = fieldValues fs n ∧ getFirstHeader U h' n = (fieldValues fs n).head?.getD [] := by
    intro n hn
    have := g1.getHeader U n
    rw [toLower_ascii U hn, List.nil_append, fieldValues_eq] at this
    exact this
  refine ⟨_, r', g6, ?_, ⟨h', rfl, g1⟩, _, _, _, _, _, _, _, _, _, rfl⟩
  refine ⟨fun n hn => (hget n hn).1, fun n hn => (hget n hn).2, ⟨f, g3, rfl⟩, ⟨t, g4, rfl⟩, ⟨c, g2, rfl⟩, ⟨v, g5, rfl⟩, ?_⟩
  rw [← k5]

/-- C101: requests of other senders.  Method and version in any letter case, any request URI that `NewSIPRequest` accepts, and
header fields with any choice of letter case, spaces around the colon, line ends, continuation lines and repetition, in any
fragmentation: everything is recovered. -/
theorem C101_peer_request (U : Unicode) (size : Nat) (hsize : 2 ≤ size) (chunks : List Bytes) (e : UInt16 × String) (he : e ∈ methods)
    (w0 : Bytes) (hw0 : SameText w0 (text e.2)) (ha0 : ∀ b ∈ w0, b < 0x80) (q : Request) (w1 : Bytes) (hq : newSIPRequest w1 = .ok q)
    (hw1 : ∀ b ∈ w1, b ≠ 0x20 ∧ b ≠ 13 ∧ b ≠ 10) (e' : UInt8 × String) (he' : e' ∈ versions)
    (w2 : Bytes) (hw2 : SameText w2 (text e'.2)) (ha2 : ∀ b ∈ w2, b < 0x80) (cr0 cr : Bool) (fs : List HField)
    (ha : Acceptable size fs) (body : Bytes) (hshort : w0.length + w1.length + w2.length + 3 < size)
    (hall : chunks.flatten = lines ((w0 ++ 0x20 :: (w1 ++ 0x20 :: w2) ++ lineEnd cr0) :: fieldLines fs) ++ lineEnd cr ++ 10 :: body) :
    ∃ m r', parse U Sip.new ⟨[], chunks, size, .eof⟩ = (.ok (), m, r') ∧ m.isResponse = false ∧ m.method = e.1 ∧ m.version = e'.1 ∧
      m.request = some q ∧ Received U m fs := by
  have hm : ∀ e ∈ methods, (∀ b ∈ (text e.2).map lowerAscii, 0x61 ≤ b ∧ b ≤ 0x7a) ∧ ((text e.2).map lowerAscii).take 3 ≠ [0x73, 0x69, 0x70] ∧
      text e.2 ≠ [] := by decide +kernel
  have hv : ∀ e ∈ versions, ∀ b ∈ (text e.2).map lowerAscii, b ≠ 0x20 ∧ b ≠ 13 ∧ b ≠ 10 := by decide +kernel
  have hlow : ∀ b : UInt8, b = 0x20 ∨ b = 13 ∨ b = 10 → lowerAscii b = b := by rintro b (rfl | rfl | rfl) <;> decide
  have c0 : ∀ b ∈ w0, b ≠ 0x20 ∧ b ≠ 13 ∧ b ≠ 10 := by
    intro b hb
    have h1 := (hm e he).1 (lowerAscii b) (by rw [← hw0]; exact List.mem_map.2 ⟨b, hb, rfl⟩)
    refine ⟨?_, ?_, ?_⟩ <;> (rintro rfl; revert h1; decide)
  have c2 : ∀ b ∈ w2, b ≠ 13 ∧ b ≠ 10 := by
    intro b hb
    have h1 := hv e' he' (lowerAscii b) (by rw [← hw2]; exact List.mem_map.2 ⟨b, hb, rfl⟩)
    refine ⟨?_, ?_⟩ <;> (rintro rfl; revert h1; decide)
  have hp : hasPrefix w0 b!"SIP" = false := by
    cases hpp : hasPrefix w0 b!"SIP" with
    | false => rfl
    | true =>
      exfalso
      rw [hasPrefix, beq_iff_eq] at hpp
      have hpp : w0.take 3 = b!"SIP" := hpp
      apply (hm e he).2.1
      rw [← hw0, ← List.map_take, hpp]
      decide
  have hne : w0 ++ 0x20 :: (w1 ++ 0x20 :: w2) ≠ [] := by simp
  obtain ⟨m, r', g1, g2, -, h, l, c, f, t, v, p, cq, x, g3⟩ := receive U size hsize chunks _ _ cr0 cr fs ha body hall
    (parseFirstLine_request U Sip.new w0 w1 w2 e.1 e'.1 q (fun h => (c0 _ h).1 rfl) (fun h => (hw1 _ h).1 rfl) hp
      ((C71_methods U e he).2 w0 ha0 hw0) hq ((C71_versions U e' he').2 w2 ha2 hw2)) rfl
    (by
      intro b hb
      simp only [List.mem_append, List.mem_cons] at hb
      rcases hb with hb | rfl | hb | rfl | hb
      · exact (c0 b hb).2
      · decide
      · exact (hw1 b hb).2
      · decide
      · exact c2 b hb) hne (by simp; omega)
  refine ⟨m, r', g1, ?_, ?_, ?_, ?_, g2⟩ <;> rw [g3] <;> rfl

/-- C101: responses of other senders: the code, the version and the reason phrase (any text, spaces included) are those of the
status line. -/
theorem C101_peer_response (U : Unicode) (size : Nat) (hsize : 2 ≤ size) (chunks : List Bytes) (e : UInt8 × String) (he : e ∈ versions)
    (d : Bytes) (code : Nat) (hd : IsDecimal d code) (hcode : code < 2 ^ 63) (phrase : Bytes) (hph : ∀ b ∈ phrase, b ≠ 13 ∧ b ≠ 10)
    (cr0 cr : Bool) (fs : List HField) (ha : Acceptable size fs) (body : Bytes) (hshort : d.length + phrase.length + 10 < size)
    (hall : chunks.flatten = lines ((text e.2 ++ 0x20 :: (d ++ 0x20 :: phrase) ++ lineEnd cr0) :: fieldLines fs) ++ lineEnd cr ++ 10 :: body) :
    ∃ m r', parse U Sip.new ⟨[], chunks, size, .eof⟩ = (.ok (), m, r') ∧ m.isResponse = true ∧ m.responseCode = code ∧
      m.responseStatus = phrase ∧ m.version = e.1 ∧ Received U m fs := by
  have hv : ∀ e ∈ versions, (∀ b ∈ text e.2, b ≠ 0x20 ∧ b ≠ 13 ∧ b ≠ 10 ∧ b < 0x80) ∧ hasPrefix (text e.2) b!"SIP" = true ∧
      (text e.2).length = 7 := by decide +kernel
  obtain ⟨v1, v2, v3⟩ := hv e he
  have hdig : ∀ b ∈ d, b ≠ 0x20 ∧ b ≠ 13 ∧ b ≠ 10 := by
    intro b hb
    have h1 := (hd.2.1 b hb).1
    rw [UInt8.le_iff_toNat_le] at h1
    refine ⟨?_, ?_, ?_⟩ <;> (rintro rfl; simp at h1)
  obtain ⟨m, r', g1, g2, -, h, l, c, f, t, v, p, cq, x, g3⟩ := receive U size hsize chunks _ _ cr0 cr fs ha body hall
    (parseFirstLine_response U Sip.new (text e.2) d phrase code e.1 (fun h => (v1 _ h).1 rfl) (fun h => (hdig _ h).1 rfl)
      v2 ((C71_versions U e he).2 _ (fun b hb => (v1 b hb).2.2.2) rfl) (atoi_decimal hd hcode)) rfl
    (by
      intro b hb
      simp only [List.mem_append, List.mem_cons] at hb
      rcases hb with hb | rfl | hb | rfl | hb
      · exact (v1 b hb).2.imp_right And.left
      · decide
      · exact (hdig b hb).2
      · decide
      · exact hph b hb) (by simp) (by simp [v3]; omega)
  refine ⟨m, r', g1, ?_, ?_, ?_, ?_, g2⟩ <;> rw [g3] <;> rfl

/-- The header fields of the examples: repeated, continued, oddly spaced, in any letter case. -/
def someFields : List HField := [
  ⟨text "Via", 0, 1, text "SIP/2.0/UDP pc33.atlanta.com:5060;branch=z9hG4bK776", 0, true, []⟩,
  ⟨text "VIA", 2, 3, text "SIP/2.0/UDP bigbox3.site3.atlanta.com", 1, true, []⟩,
  ⟨text "from", 0, 1, text "\"Bob\" <sip:bob@biloxi.com>", 0, true, [⟨[9, 0x20], text ";tag=a6c85cf", false⟩]⟩,
  ⟨text "Subject", 1, 0, text "I know you're there,", 2, false,
    [⟨text "   ", text "pick up the phone", true⟩, ⟨[9], text "and answer!", true⟩]⟩,
  ⟨text "Content-Length", 0, 1, text "4", 0, true, []⟩, ⟨text "vIa", 0, 0, [], 0, true, []⟩]

theorem someFields_fit : ∀ f ∈ someFields, f.Fits := by
  have h1 : ∀ f ∈ someFields, f.name ≠ [] ∧ ∀ b ∈ f.name, 0x21 ≤ b ∧ b ≤ 0x7e ∧ b ≠ 0x3a := by decide +kernel
  have h2 : ∀ f ∈ someFields, (∀ b ∈ f.value, b ≠ 13 ∧ b ≠ 10) ∧ f.value.head? ≠ some 0x20 ∧ f.value.getLast? ≠ some 0x20 := by
    decide +kernel
  have h3 : ∀ f ∈ someFields, f.conts = [] ∨ f.value ≠ [] := by
    have : ∀ f ∈ someFields, f.conts.length = 0 ∨ f.value ≠ [] := by decide +kernel
    exact fun f hf => (this f hf).imp_left List.length_eq_zero_iff.1
  have h4 : ∀ f ∈ someFields, ∀ c ∈ f.conts, (c.blanks ≠ [] ∧ ∀ b ∈ c.blanks, b = 0x20 ∨ b = 9) ∧ (c.text ≠ [] ∧ ∀ b ∈ c.text, b ≠ 13 ∧ b ≠ 10) ∧
      (∀ b ∈ c.text.head?, 0x21 ≤ b ∧ b ≤ 0x7e) ∧ (∀ b ∈ c.text.getLast?, 0x21 ≤ b ∧ b ≤ 0x7e) := by decide +kernel
  exact fun f hf => ⟨h1 f hf, ⟨(h2 f hf).1, (h2 f hf).2.1, (h2 f hf).2.2⟩, fun h => (h3 f hf).resolve_left h,
    fun c hc => ⟨(h4 f hf c hc).1, (h4 f hf c hc).2.1, (h4 f hf c hc).2.2.1, (h4 f hf c hc).2.2.2⟩⟩

theorem someFields_ok : Acceptable 4096 someFields := by
  have h5 : ∀ n ∈ [text "from", text "to", text "contact", text "via"], ∀ v ∈ (fieldValues someFields n).head?,
      valuesPresentB v = true := by decide +kernel
  exact ⟨someFields_fit, by decide +kernel, fun n hn v hv => valuesPresent_of (h5 n hn v hv),
    text "4", 4, by decide +kernel, by simp only [IsDecimal]; decide +kernel, by decide⟩

/-- What is meant. -/
example : fieldValues someFields (text "subject") = [text "I know you're there, pick up the phone and answer!"] ∧
    fieldValues someFields (text "via") = [text "SIP/2.0/UDP pc33.atlanta.com:5060;branch=z9hG4bK776",
      text "SIP/2.0/UDP bigbox3.site3.atlanta.com", []] ∧
    fieldValues someFields (text "From") = [text "\"Bob\" <sip:bob@biloxi.com> ;tag=a6c85cf"] := by decide +kernel

/-- The bytes of a message with these fields, in two pieces. -/
def someWire (first : Bytes) : List Bytes :=
  [(lines ((first ++ lineEnd true) :: fieldLines someFields) ++ lineEnd true ++ 10 :: text "abcd").take 30,
   (lines ((first ++ lineEnd true) :: fieldLines someFields) ++ lineEnd true ++ 10 :: text "abcd").drop 30]

example (U : Unicode) : ∃ m r', parse U Sip.new ⟨[], someWire (text "bye sip:a@b SIP/2.0"), 4096, .eof⟩ = (.ok (), m, r') ∧
    m.isResponse = false ∧ m.method = 3 ∧ m.version = 2 ∧
    m.request = some ⟨text "sip", text "a", text "b", [], []⟩ ∧ Received U m someFields := by
  have h := C101_peer_request U 4096 (by decide) (someWire (text "bye sip:a@b SIP/2.0")) (3, "BYE") (by decide) (text "bye")
    (by simp only [SameText]; decide +kernel) (by decide +kernel) ⟨text "sip", text "a", text "b", [], []⟩ (text "sip:a@b") (by decide +kernel)
    (by decide +kernel) (2, "SIP/2.0") (by decide) (text "SIP/2.0") rfl (by decide +kernel) true true someFields someFields_ok
    (text "abcd") (by decide +kernel) (by decide +kernel)
  exact h

example (U : Unicode) : ∃ m r', parse U Sip.new ⟨[], someWire (text "SIP/2.0 180 Please hold the line"), 4096, .eof⟩ = (.ok (), m, r') ∧
    m.isResponse = true ∧ m.responseCode = 180 ∧ m.responseStatus = text "Please hold the line" ∧ m.version = 2 ∧ Received U m someFields :=
  C101_peer_response U 4096 (by decide) _ (2, "SIP/2.0") (by decide) (text "180") 180 (by simp only [IsDecimal]; decide +kernel) (by decide)
    (text "Please hold the line") (by decide +kernel) true true someFields someFields_ok (text "abcd") (by decide +kernel) (by decide +kernel)

end Verif.Props
