import Verif.Props.SipsConn
/-!
# Properties of package `sips`: exactly which texts and messages panic (C77 and C78)
-/
namespace Verif.Props
open Verif.Sips Verif.Str Verif.Spec Verif.Spec.Sips

/-! ## C77 -/

theorem bind_panic {α β} (x : Res α) (f : α → β) : (x >>= fun a => (.ok (f a) : Res β)) = .panic ↔ x = .panic := by
  cases x <;> simp

theorem bind_returns {α β} (x : Res α) (f : α → β) : (∃ b, (x >>= fun a => (.ok (f a) : Res β)) = .ok b) ↔ ∃ a, x = .ok a := by
  cases x <;> simp

theorem parseArgs_semi_first (s : Bytes) : parseArgs s = .panic ↔ ∃ a r, s = a ++ 0x3b :: r ∧ (0x3b : UInt8) ∉ a ∧ parseArgsPairs r = .panic := by
  constructor
  · intro h
    rcases fromSemi_cases s with ⟨h1, -⟩ | ⟨a, r, rfl, ha, -⟩
    · rw [parseArgs_none s h1] at h; simp at h
    · rw [parseArgs_split a r ha] at h
      exact ⟨a, r, rfl, ha, h⟩
  · rintro ⟨a, r, rfl, ha, h⟩
    rw [parseArgs_split a r ha]; exact h

theorem parseArgsPairs_two (s : Bytes) : parseArgsPairs s = .panic ∨ ∃ m, parseArgsPairs s = .ok m := by
  by_cases h : ∃ p ∈ parseList (trimSpace s), NoValue p
  · exact .inl ((C77_args_panic_iff s).1.2 h)
  · exact .inr ((C77_args_panic_iff s).2 fun p hp hn => h ⟨p, hp, hn⟩)

theorem parseArgs_two (s : Bytes) : parseArgs s = .panic ∨ ∃ m, parseArgs s = .ok m := by
  rcases fromSemi_cases s with ⟨h, -⟩ | ⟨a, r, rfl, ha, -⟩
  · exact .inr ⟨_, parseArgs_none s h⟩
  · rw [parseArgs_split a r ha]; exact parseArgsPairs_two r

theorem newSIPUser_two (s : Bytes) : newSIPUser s = .panic ∨ ∃ u, newSIPUser s = .ok u := by
  obtain ⟨q, hq⟩ := newSIPUser_total s
  rw [hq, bind_panic, bind_returns]
  exact parseArgs_two s

theorem newSIPRequest_two (s : Bytes) : newSIPRequest s = .panic ∨ ∃ u, newSIPRequest s = .ok u := by
  obtain ⟨q, hq⟩ := newSIPRequest_total s
  rw [hq, bind_panic, bind_returns]
  exact parseArgs_two s

theorem newSIPVia_two (s : Bytes) : newSIPVia s = .panic ∨ ∃ u, newSIPVia s = .ok u := by
  obtain ⟨q, n, hq⟩ := newSIPVia_total s
  rw [hq, bind_panic, bind_returns]
  exact parseArgs_two _

/-- A parameter section (what follows the first `;`) that cannot be read: some element of the list in it has no value. -/
def BadParams (s : Bytes) : Prop := ∃ a r, s = a ++ 0x3b :: r ∧ (0x3b : UInt8) ∉ a ∧ ∃ p ∈ parseList (trimSpace r), NoValue p

theorem parseArgs_bad (s : Bytes) : parseArgs s = .panic ↔ BadParams s := by
  rw [parseArgs_semi_first]
  constructor
  · rintro ⟨a, r, h1, h2, h3⟩; exact ⟨a, r, h1, h2, (C77_args_panic_iff r).1.1 h3⟩
  · rintro ⟨a, r, h1, h2, h3⟩; exact ⟨a, r, h1, h2, (C77_args_panic_iff r).1.2 h3⟩

/-- C77 (partial), exactly: `ParseArgs`, `NewSIPUser` and `NewSIPRequest` panic if and only if an element of the list behind the
first semicolon has no value behind its `=`; `NewSIPAuth` if and only if its credentials have such an element; `NewSIPVia` only
if the list behind some semicolon has one (`C77_via_panics_iff` says when that is the first one).  The others return in every
other case. -/
theorem C77_constructors_panic_iff (U : Unicode) (s : Bytes) :
    (parseArgs s = .panic ↔ BadParams s) ∧ (newSIPUser s = .panic ↔ BadParams s) ∧ (newSIPRequest s = .panic ↔ BadParams s) ∧
    (newSIPAuth U s = .panic ↔ ∃ d r, s = d ++ r ∧ d.length = 7 ∧ r ≠ [] ∧ toLower U d = text "digest " ∧
      ∃ p ∈ parseList (trimSpace r), NoValue p) ∧
    (newSIPVia s = .panic → ∃ x y, s = x ++ y ∧ BadParams y) ∧
    (¬ BadParams s → (∃ m, parseArgs s = .ok m) ∧ (∃ u, newSIPUser s = .ok u) ∧ ∃ r, newSIPRequest s = .ok r) := by
  have hA := parseArgs_bad s
  have hU : newSIPUser s = .panic ↔ BadParams s := by
    obtain ⟨q, hq⟩ := newSIPUser_total s
    rw [hq, bind_panic, hA]
  have hR : newSIPRequest s = .panic ↔ BadParams s := by
    obtain ⟨q, hq⟩ := newSIPRequest_total s
    rw [hq, bind_panic, hA]
  refine ⟨hA, hU, hR, ?_, ?_, ?_⟩
  · have e : text "digest " = b!"digest " := by decide +kernel
    rw [e]
    constructor
    · intro h
      simp only [newSIPAuth] at h
      by_cases hl : 8 ≤ s.length
      · obtain ⟨d, r, rfl, hd⟩ : ∃ d r, s = d ++ r ∧ d.length = 7 := ⟨s.take 7, s.drop 7, by simp, by simp; omega⟩
        have hr : r ≠ [] := by rintro rfl; simp at hl; omega
        have g1 : goSlice (d ++ r) 0 7 = .ok d := goSlice_prefix d _ 7 hd
        have g2 : goSlice (d ++ r) 7 (d ++ r).length = .ok r := goSlice_suffix d _ 7 hd
        rw [if_pos hl, g1, Res.bind_ok] at h
        by_cases ht : toLower U d = b!"digest "
        · rw [if_pos ht, g2, Res.bind_ok] at h
          exact ⟨d, r, rfl, hd, hr, ht, (C77_args_panic_iff r).1.1 h⟩
        · rw [if_neg ht] at h; simp at h
      · rw [if_neg hl] at h; simp at h
    · rintro ⟨d, r, rfl, hd, hr, ht, hp⟩
      have g1 : goSlice (d ++ r) 0 7 = .ok d := goSlice_prefix d _ 7 hd
      have g2 : goSlice (d ++ r) 7 (d ++ r).length = .ok r := goSlice_suffix d _ 7 hd
      have hl : (d ++ r).length ≥ 8 := by
        have := List.length_pos_iff.2 hr
        simp; omega
      simp only [newSIPAuth]
      rw [if_pos hl, g1, Res.bind_ok, if_pos ht, g2, Res.bind_ok]
      exact (C77_args_panic_iff r).1.2 hp
  · intro h
    obtain ⟨q, n, hq⟩ := newSIPVia_total s
    rw [hq, bind_panic, parseArgs_bad] at h
    exact ⟨s.take n, s.drop n, by simp, h⟩
  · intro h
    refine ⟨?_, ?_, ?_⟩
    · exact (parseArgs_two s).resolve_left (fun hp => h (hA.1 hp))
    · exact (newSIPUser_two s).resolve_left (fun hp => h (hU.1 hp))
    · exact (newSIPRequest_two s).resolve_left (fun hp => h (hR.1 hp))

/-- The text up to the first semicolon ends in `SIP/2.0/`: a Via value without a transport. -/
def NoTransport (s : Bytes) : Prop := ∃ a r, s = a ++ (text "SIP/2.0/" ++ 0x3b :: r) ∧ (0x3b : UInt8) ∉ a

theorem viaLoop_rest : ∀ (f : Nat) (s : Bytes) (st : Field) (p : Via), s.length < f → (st = .base → ¬ NoTransport s) →
    ∃ q, viaLoop f s st p = .ok (q, fromSemi s)
  | 0, s, st, p, h, _ => by omega
  | f + 1, [], st, p, h, _ => ⟨p, rfl⟩
  | f + 1, b :: r, st, p, h, hn => by
    have ih := fun s st p => viaLoop_rest f s st p
    have hr : r.length < f := by simp at h; omega
    rw [viaLoop_cons]
    by_cases hb : b = c!";"
    · rw [if_pos hb]; subst hb; exact ⟨p, by rw [fromSemi_semi]⟩
    have hstep : ∀ st' p, (st' = .base → st = .base) → ∃ q, viaLoop f r st' p = .ok (q, fromSemi (b :: r)) := by
      intro st' p hst
      rw [fromSemi_cons hb]
      refine ih r st' p hr fun hs => ?_
      rintro ⟨a, r', e, ha⟩
      refine hn (hst hs) ⟨b :: a, r', by rw [e]; rfl, ?_⟩
      simp only [List.mem_cons, not_or]
      exact ⟨fun h => hb h.symm, ha⟩
    rw [if_neg hb]
    by_cases hb2 : b = c!" "
    · rw [if_pos hb2]; exact hstep _ _ id
    rw [if_neg hb2]
    cases st with
    | base =>
      rw [show (8 : Int) = ((8 : Nat) : Int) from rfl]
      simp only [substring_take, Res.bind_ok]
      split
      next h8 =>
        have hs8 : b :: r = b!"SIP/2.0/" ++ (b :: r).drop 8 := by rw [← h8, List.take_append_drop]
        generalize hx : (b :: r).drop 8 = x at hs8
        have hxl : x.length < f := by rw [← hx]; simp; omega
        have hfs : fromSemi (b :: r) = fromSemi x := by rw [hs8]; exact fromSemi_skip _ _ (by decide)
        have hns : ∀ y, x ≠ 0x3b :: y := by
          rintro y rfl
          refine hn rfl ⟨[], y, ?_, by simp⟩
          rw [hs8, show text "SIP/2.0/" = b!"SIP/2.0/" from by decide +kernel]; rfl
        simp only [viaTrans]
        rw [show (3 : Int) = ((3 : Nat) : Int) from rfl, substring_take, Res.bind_ok, hfs]
        split
        next h3 =>
          have hx3 : x = x.take 3 ++ x.drop 3 := by simp
          rw [Res.bind_ok]
          obtain ⟨q, hq⟩ := ih (x.drop 3) .host { p with trans := x.take 3 } (by simp; omega) (by simp)
          refine ⟨q, ?_⟩
          rw [hq]
          have : fromSemi x = fromSemi (x.drop 3) := by
            have e := fromSemi_skip (x.take 3) (x.drop 3) (by rcases h3 with h3 | h3 | h3 <;> rw [h3] <;> decide)
            rwa [← hx3] at e
          rw [this]
        next h3 =>
          rw [show (4 : Int) = ((4 : Nat) : Int) from rfl, substring_take, Res.bind_ok]
          split
          next h4 =>
            have hx4 : x = x.take 4 ++ x.drop 4 := by simp
            rw [Res.bind_ok]
            obtain ⟨q, hq⟩ := ih (x.drop 4) .host { p with trans := x.take 4 } (by simp; omega) (by simp)
            refine ⟨q, ?_⟩
            rw [hq]
            have : fromSemi x = fromSemi (x.drop 4) := by
              have e := fromSemi_skip (x.take 4) (x.drop 4) (by rw [h4]; decide)
              rwa [← hx4] at e
            rw [this]
          next h4 =>
            rw [Res.bind_ok]
            obtain ⟨q, hq⟩ := ih (x.drop 1) .host { p with trans := p.trans } (by simp; omega) (by simp)
            refine ⟨q, ?_⟩
            rw [hq]
            cases x with
            | nil => rfl
            | cons y x =>
              have : y ≠ 0x3b := by rintro rfl; exact hns x rfl
              rw [fromSemi_cons this]; rfl
      next h8 => exact hstep _ _ id
    | user => exact hstep _ _ (by simp)
    | host => dsimp only; split <;> exact hstep _ _ (by simp)
    | port => exact hstep _ _ (by simp)
    | name => exact hstep _ _ (by simp)

/-- C77 (partial), exactly: for a Via value that names a transport (whatever it is) `NewSIPVia` panics if and only if an element
of the list behind the first semicolon has no value behind its `=`, and returns in every other case; when nothing stands between
`SIP/2.0/` and the first semicolon that semicolon is taken for the transport. -/
theorem C77_via_panics_iff (s : Bytes) :
    (¬ NoTransport s → ((newSIPVia s = .panic ↔ BadParams s) ∧ (¬ BadParams s → ∃ v, newSIPVia s = .ok v))) ∧
    (newSIPVia s = .panic ∨ ∃ v, newSIPVia s = .ok v) := by
  refine ⟨fun hn => ?_, newSIPVia_two s⟩
  obtain ⟨q, hq⟩ := viaLoop_rest (s.length + 1) s .base ⟨[], [], [], []⟩ (by omega) (fun _ => hn)
  have e : newSIPVia s = (parseArgs s >>= fun a => .ok { q with args := a }) := by
    simp only [newSIPVia, hq, Res.bind_ok, tail_args]
  rw [e, bind_panic, bind_returns, parseArgs_bad]
  exact ⟨Iff.rfl, fun h => (parseArgs_two s).resolve_left fun hp => h ((parseArgs_bad s).1 hp)⟩

/-! ## C78 -/

theorem fillHeader_panic (U : Unicode) (s : Sip) : (fillHeader U s).1 = .panic ↔
    (getSIPContact U s.hdr = .panic ∨ getSIPFrom U s.hdr = .panic ∨ getSIPTo U s.hdr = .panic ∨ getSIPVia U s.hdr = .panic) := by
  have hc := newSIPUser_two (getFirstHeader U s.hdr b!"contact")
  have hf := newSIPUser_two (getFirstHeader U s.hdr b!"from")
  have ht := newSIPUser_two (getFirstHeader U s.hdr b!"to")
  have hv := newSIPVia_two (getFirstHeader U s.hdr b!"via")
  simp only [Sip.hdr] at hc hf ht hv
  simp only [fillHeader, GoM.bind_apply, GoM.get_apply, GoM.modify_apply, GoM.lift_apply, Sip.hdr, getSIPContact, getSIPFrom, getSIPTo, getSIPVia]
  rcases hc with hc | ⟨c, hc⟩ <;> rw [hc] <;> simp
  rcases hf with hf | ⟨f, hf⟩ <;> rw [hf] <;> simp
  rcases ht with ht | ⟨t, ht⟩ <;> rw [ht] <;> simp
  rcases hv with hv | ⟨v, hv⟩ <;> rw [hv] <;> simp

theorem fillHeader_two (U : Unicode) (s : Sip) : (fillHeader U s).1 = .panic ∨ (fillHeader U s).1 = .ok () := by
  have hc := newSIPUser_two (getFirstHeader U s.hdr b!"contact")
  have hf := newSIPUser_two (getFirstHeader U s.hdr b!"from")
  have ht := newSIPUser_two (getFirstHeader U s.hdr b!"to")
  have hv := newSIPVia_two (getFirstHeader U s.hdr b!"via")
  simp only [Sip.hdr] at hc hf ht hv
  simp only [fillHeader, GoM.bind_apply, GoM.get_apply, GoM.modify_apply, GoM.lift_apply, Sip.hdr, getSIPContact, getSIPFrom, getSIPTo, getSIPVia]
  rcases hc with hc | ⟨c, hc⟩ <;> rw [hc] <;> simp
  rcases hf with hf | ⟨f, hf⟩ <;> rw [hf] <;> simp
  rcases ht with ht | ⟨t, ht⟩ <;> rw [ht] <;> simp
  rcases hv with hv | ⟨v, hv⟩ <;> rw [hv] <;> simp

theorem finish_panic (U : Unicode) (pre blank : Bytes) (s : Sip) (r : Rd) (hr : r.Ok) :
    ((finish U (pre ++ blank) pre.length s r).1 = .panic ↔ (fillHeader U s).1 = .panic) ∧
    (finish U (pre ++ blank) pre.length s r).1 ≠ .diverge := by
  rcases hf : fillHeader U s with ⟨q, s1⟩
  have h2 := fillHeader_two U s
  rw [hf] at h2
  rcases h2 with h2 | h2
  · have h2 : q = .panic := h2
    subst h2
    rw [finish, hf]; simp
  · have h2 : q = .ok () := h2
    subst h2
    rcases finish_cases U pre blank s s1 r hr hf with ⟨_, _, _, -, -, h, -⟩ | ⟨_, _, -, -, -, h⟩ | ⟨_, -, h⟩ <;> rw [h] <;> simp

/-- The first value of a field, or nothing. -/
def firstOf (fs : List HField) (n : String) : Bytes := (fieldValues fs (text n)).head?.getD []

/-- One of the addresses of a message that `Parse` looks into cannot be read. -/
def BadAddress (fs : List HField) : Prop :=
  BadParams (firstOf fs "from") ∨ BadParams (firstOf fs "to") ∨ BadParams (firstOf fs "contact") ∨ newSIPVia (firstOf fs "via") = .panic

theorem parse_panic_fields (U : Unicode) (size : Nat) (hsize : 2 ≤ size) (fin : Err) (chunks : List Bytes) (l0 : Bytes) (s0 : Sip) (cr0 cr : Bool)
    (fs : List HField) (hfit : ∀ f ∈ fs, f.Fits) (hshort : ∀ l ∈ fieldLines fs, l.length < size) (body : Bytes)
    (hall : chunks.flatten = lines ((l0 ++ lineEnd cr0) :: fieldLines fs) ++ lineEnd cr ++ 10 :: body)
    (hfirst : parseFirstLine U l0 Sip.new = (.ok (), s0)) (h0 : s0.headers = some [])
    (hl0 : ∀ b ∈ l0, b ≠ 13 ∧ b ≠ 10) (hne : l0 ≠ []) (hlen0 : l0.length + 1 < size) :
    ((parse U Sip.new ⟨[], chunks, size, fin⟩).1 = .panic ↔ BadAddress fs) ∧ (parse U Sip.new ⟨[], chunks, size, fin⟩).1 ≠ .diverge := by
  have hr : (⟨[], chunks, size, fin⟩ : Rd).Ok := ⟨by show 0 < size; omega, by simp⟩
  have hall' : (⟨[], chunks, size, fin⟩ : Rd).all = joinLines ((l0 ++ lineEnd cr0) :: fieldLines fs) ++ (lineEnd cr ++ 10 :: body) := by
    rw [← List.append_assoc, Rd.all, List.nil_append]; exact hall
  have hce : ∀ c : Bool, (lineEnd c).length ≤ 1 := by intro c; cases c <;> simp [lineEnd]
  have t0 := trim_of_chars cr0 hl0
  have hls := field_lines size l0 cr0 fs hfit hshort hl0 hne hlen0
  obtain ⟨h', last, g1, g2⟩ := runLines_fields U fs [] s0 [] h0 shows_nil hfit
  have hrun : runLines U true (((l0 ++ lineEnd cr0) :: fieldLines fs).map (trim crlf)) Sip.new =
      (.ok (), { s0 with headers := some h', last := last }) := by
    have hp : parseLine U true l0 Sip.new = (.ok (), s0) := hfirst
    rw [List.map_cons, t0, runLines, hp]
    exact g1
  obtain ⟨r1, k1, -, -, -, k5⟩ := Verif.Sips.parse_blank U Sip.new _ s0 _ hr _ (lineEnd cr) body hall'
    (by cases cr <;> simp [lineEnd]) (by have := hce cr; show _ < size; omega) hls hrun
  obtain ⟨m1, m2⟩ := finish_panic U (joinLines ((l0 ++ lineEnd cr0) :: fieldLines fs)) (lineEnd cr ++ [10])
    { s0 with headers := some h', last := last } r1 k1
  have hget : ∀ n : String, (∀ b ∈ text n, b < 0x80 ∧ ¬ (0x41 ≤ b ∧ b ≤ 0x5a)) → (text n).map lowerAscii = text n →
      getFirstHeader U h' (text n) = firstOf fs n := by
    intro n hn hlow
    have := (g2.getHeader U (text n)).2
    rw [toLower_keep U hn, List.nil_append] at this
    rw [this, firstOf, ← fieldValues_eq, hlow]
  have u := fun s => (C77_constructors_panic_iff U s).2.1
  refine ⟨?_, by rw [k5]; exact m2⟩
  rw [k5, m1, fillHeader_panic]
  have e1 : text "from" = b!"from" := by decide +kernel
  have e2 : text "to" = b!"to" := by decide +kernel
  have e3 : text "contact" = b!"contact" := by decide +kernel
  have e4 : text "via" = b!"via" := by decide +kernel
  show (getSIPContact U h' = _ ∨ getSIPFrom U h' = _ ∨ getSIPTo U h' = _ ∨ getSIPVia U h' = _) ↔ _
  rw [getSIPContact, getSIPFrom, getSIPTo, getSIPVia, ← e1, ← e2, ← e3, ← e4, hget "from" (by decide +kernel) (by decide +kernel),
    hget "to" (by decide +kernel) (by decide +kernel), hget "contact" (by decide +kernel) (by decide +kernel),
    hget "via" (by decide +kernel) (by decide +kernel), u, u, u, BadAddress]
  constructor
  · rintro (h | h | h | h)
    · exact .inr (.inr (.inl h))
    · exact .inl h
    · exact .inr (.inl h)
    · exact .inr (.inr (.inr h))
  · rintro (h | h | h | h)
    · exact .inr (.inl h)
    · exact .inr (.inr (.inl h))
    · exact .inl h
    · exact .inr (.inr (.inr h))

/-- C78 (partial), exactly, for responses: a status line, well-formed header fields with any values, any body, any fragmentation
and any end of the connection.  `Parse` panics if and only if the first From, To, Contact or Via value has a parameter without a
value behind its `=`, whatever the other fields, the content length and the body are. -/
theorem C78_response_panics_iff (U : Unicode) (size : Nat) (hsize : 2 ≤ size) (fin : Err) (chunks : List Bytes) (e : UInt8 × String)
    (he : e ∈ versions) (d : Bytes) (code : Nat) (hd : IsDecimal d code) (hcode : code < 2 ^ 63) (phrase : Bytes)
    (hph : ∀ b ∈ phrase, b ≠ 13 ∧ b ≠ 10) (cr0 cr : Bool) (fs : List HField) (hfit : ∀ f ∈ fs, f.Fits)
    (hlines : ∀ l ∈ fieldLines fs, l.length < size) (body : Bytes) (hshort : d.length + phrase.length + 10 < size)
    (hall : chunks.flatten = lines ((text e.2 ++ 0x20 :: (d ++ 0x20 :: phrase) ++ lineEnd cr0) :: fieldLines fs) ++ lineEnd cr ++ 10 :: body) :
    ((parse U Sip.new ⟨[], chunks, size, fin⟩).1 = .panic ↔ BadAddress fs) ∧ (parse U Sip.new ⟨[], chunks, size, fin⟩).1 ≠ .diverge := by
  have hv : ∀ e ∈ versions, (∀ b ∈ text e.2, b ≠ 0x20 ∧ b ≠ 13 ∧ b ≠ 10 ∧ b < 0x80) ∧ hasPrefix (text e.2) b!"SIP" = true ∧
      (text e.2).length = 7 := by decide +kernel
  obtain ⟨v1, v2, v3⟩ := hv e he
  have hdig : ∀ b ∈ d, b ≠ 0x20 ∧ b ≠ 13 ∧ b ≠ 10 := by
    intro b hb
    have h1 := (hd.2.1 b hb).1
    rw [UInt8.le_iff_toNat_le] at h1
    refine ⟨?_, ?_, ?_⟩ <;> (rintro rfl; simp at h1)
  exact parse_panic_fields U size hsize fin chunks _ _ cr0 cr fs hfit hlines body hall
    (parseFirstLine_response U Sip.new (text e.2) d phrase code e.1 (fun h => (v1 _ h).1 rfl) (fun h => (hdig _ h).1 rfl)
      v2 ((C71_versions U e he).2 _ (fun b hb => (v1 b hb).2.2.2) rfl) (atoi_decimal hd hcode)) rfl
    (by
      intro b hb
      simp only [List.mem_append, List.mem_cons] at hb
      rcases hb with hb | rfl | hb | rfl | hb
      · exact (v1 b hb).2.imp_right And.left
      · decide
      · exact (hdig b hb).2
      · decide
      · exact hph b hb) (by simp) (by simp [v3]; omega)

/-- C78 (partial), exactly, for requests: method and version in any letter case, any request URI.  `Parse` panics if and only if
the URI or the first From, To, Contact or Via value has a parameter without a value behind its `=`. -/
theorem C78_request_panics_iff (U : Unicode) (size : Nat) (hsize : 2 ≤ size) (fin : Err) (chunks : List Bytes) (e : UInt16 × String)
    (he : e ∈ methods) (w0 : Bytes) (hw0 : SameText w0 (text e.2)) (ha0 : ∀ b ∈ w0, b < 0x80) (w1 : Bytes)
    (hw1 : ∀ b ∈ w1, b ≠ 0x20 ∧ b ≠ 13 ∧ b ≠ 10) (e' : UInt8 × String) (he' : e' ∈ versions)
    (w2 : Bytes) (hw2 : SameText w2 (text e'.2)) (ha2 : ∀ b ∈ w2, b < 0x80) (cr0 cr : Bool) (fs : List HField) (hfit : ∀ f ∈ fs, f.Fits)
    (hlines : ∀ l ∈ fieldLines fs, l.length < size) (body : Bytes) (hshort : w0.length + w1.length + w2.length + 3 < size)
    (hall : chunks.flatten = lines ((w0 ++ 0x20 :: (w1 ++ 0x20 :: w2) ++ lineEnd cr0) :: fieldLines fs) ++ lineEnd cr ++ 10 :: body) :
    ((parse U Sip.new ⟨[], chunks, size, fin⟩).1 = .panic ↔ BadParams w1 ∨ BadAddress fs) ∧
    (parse U Sip.new ⟨[], chunks, size, fin⟩).1 ≠ .diverge := by
  have hm : ∀ e ∈ methods, (∀ b ∈ (text e.2).map lowerAscii, 0x61 ≤ b ∧ b ≤ 0x7a) ∧ ((text e.2).map lowerAscii).take 3 ≠ [0x73, 0x69, 0x70] ∧
      text e.2 ≠ [] := by decide +kernel
  have hv : ∀ e ∈ versions, ∀ b ∈ (text e.2).map lowerAscii, b ≠ 0x20 ∧ b ≠ 13 ∧ b ≠ 10 := by decide +kernel
  have c0 : ∀ b ∈ w0, b ≠ 0x20 ∧ b ≠ 13 ∧ b ≠ 10 := by
    intro b hb
    have h1 := (hm e he).1 (lowerAscii b) (by rw [← hw0]; exact List.mem_map.2 ⟨b, hb, rfl⟩)
    refine ⟨?_, ?_, ?_⟩ <;> (rintro rfl; revert h1; decide)
  have c2 : ∀ b ∈ w2, b ≠ 13 ∧ b ≠ 10 := by
    intro b hb
    have h1 := hv e' he' (lowerAscii b) (by rw [← hw2]; exact List.mem_map.2 ⟨b, hb, rfl⟩)
    refine ⟨?_, ?_⟩ <;> (rintro rfl; revert h1; decide)
  have hp : hasPrefix w0 b!"SIP" = false := by
    cases hpp : hasPrefix w0 b!"SIP" with
    | false => rfl
    | true =>
      exfalso
      rw [hasPrefix, beq_iff_eq] at hpp
      have hpp : w0.take 3 = b!"SIP" := hpp
      apply (hm e he).2.1
      rw [← hw0, ← List.map_take, hpp]
      decide
  have hne : w0 ++ 0x20 :: (w1 ++ 0x20 :: w2) ≠ [] := by simp
  have hchars : ∀ b ∈ w0 ++ 0x20 :: (w1 ++ 0x20 :: w2), b ≠ 13 ∧ b ≠ 10 := by
    intro b hb
    simp only [List.mem_append, List.mem_cons] at hb
    rcases hb with hb | rfl | hb | rfl | hb
    · exact (c0 b hb).2
    · decide
    · exact (hw1 b hb).2
    · decide
    · exact c2 b hb
  have hlen : (w0 ++ 0x20 :: (w1 ++ 0x20 :: w2)).length + 1 < size := by simp; omega
  have hreq := (C77_constructors_panic_iff U w1).2.2.1
  rcases newSIPRequest_two w1 with hq | ⟨q, hq⟩
  · have hfirst : parseFirstLine U (w0 ++ 0x20 :: (w1 ++ 0x20 :: w2)) Sip.new = (.panic, { Sip.new with method := e.1 }) := by
      rw [parseFirstLine, splitN_two (fun h => (c0 _ h).1 rfl) (fun h => (hw1 _ h).1 rfl)]
      simp only [hp, (C71_methods U e he).2 w0 ha0 hw0, hq, GoM.bind_apply, GoM.modify_apply, GoM.lift_apply, Bool.false_eq_true, if_false]
    have hr : (⟨[], chunks, size, fin⟩ : Rd).Ok := ⟨by show 0 < size; omega, by simp⟩
    have hall' : (⟨[], chunks, size, fin⟩ : Rd).all = joinLines ((w0 ++ 0x20 :: (w1 ++ 0x20 :: w2) ++ lineEnd cr0) :: fieldLines fs) ++ (lineEnd cr ++ 10 :: body) := by
      rw [← List.append_assoc, Rd.all, List.nil_append]; exact hall
    have hls := field_lines size _ cr0 fs hfit hlines hchars hne hlen
    have hj := joinLines_length ((w0 ++ 0x20 :: (w1 ++ 0x20 :: w2) ++ lineEnd cr0) :: fieldLines fs)
    have hl := congrArg List.length hall'
    rw [List.length_append] at hl
    obtain ⟨r1, -, -, -, -, -, g4, -⟩ := lineLoop_lines U (lineEnd cr ++ 10 :: body) _ 
      ((⟨[], chunks, size, fin⟩ : Rd).all.length + 2 - ((w0 ++ 0x20 :: (w1 ++ 0x20 :: w2) ++ lineEnd cr0) :: fieldLines fs).length) true [] 0 Sip.new _ hr hall' hls
    have hrun : runLines U true (((w0 ++ 0x20 :: (w1 ++ 0x20 :: w2) ++ lineEnd cr0) :: fieldLines fs).map (trim crlf)) Sip.new =
        (.panic, { Sip.new with method := e.1 }) := by
      have hp : parseLine U true (w0 ++ 0x20 :: (w1 ++ 0x20 :: w2)) Sip.new = _ := hfirst
      rw [List.map_cons, trim_of_chars cr0 hchars, runLines, hp]
    have hloop := g4 _ hrun
    rw [show ((w0 ++ 0x20 :: (w1 ++ 0x20 :: w2) ++ lineEnd cr0) :: fieldLines fs).length +
      ((⟨[], chunks, size, fin⟩ : Rd).all.length + 2 - ((w0 ++ 0x20 :: (w1 ++ 0x20 :: w2) ++ lineEnd cr0) :: fieldLines fs).length) =
      (⟨[], chunks, size, fin⟩ : Rd).all.length + 2 by omega] at hloop
    have hpar : (parse U Sip.new ⟨[], chunks, size, fin⟩).1 = .panic := by rw [parse, hloop]
    rw [hpar]
    simp [hreq.1 hq]
  · have hnb : ¬ BadParams w1 := fun h => by rw [hreq.2 h] at hq; simp at hq
    have := parse_panic_fields U size hsize fin chunks _ _ cr0 cr fs hfit hlines body hall
      (parseFirstLine_request U Sip.new w0 w1 w2 e.1 e'.1 q (fun h => (c0 _ h).1 rfl) (fun h => (hw1 _ h).1 rfl) hp
        ((C71_methods U e he).2 w0 ha0 hw0) hq ((C71_versions U e' he').2 w2 ha2 hw2)) rfl hchars hne hlen
    rw [or_iff_right hnb]
    exact this

/-- A last parameter with an empty value. -/
theorem badParams_empty (a k : Bytes) (ha : (0x3b : UInt8) ∉ a) (hk : ArgKey k) : BadParams (a ++ 0x3b :: (k ++ [0x3d])) := by
  have h := (C77_args_panic_refuted k hk).1
  have e := parseArgs_split [] (k ++ [0x3d]) (by simp)
  rw [List.nil_append] at e
  rw [e] at h
  exact ⟨a, _, rfl, ha, (C77_args_panic_iff _).1.1 h⟩

/-- C78 fails for every response, of any version, code and reason phrase, with any other header fields and any body: when the first
From, To or Contact value, whatever the address is, ends in a parameter with an empty value (`;tag=`), `Parse` panics. -/
theorem C78_empty_parameter_refuted (U : Unicode) (size : Nat) (hsize : 2 ≤ size) (fin : Err) (chunks : List Bytes) (e : UInt8 × String)
    (he : e ∈ versions) (d : Bytes) (code : Nat) (hd : IsDecimal d code) (hcode : code < 2 ^ 63) (phrase : Bytes)
    (hph : ∀ b ∈ phrase, b ≠ 13 ∧ b ≠ 10) (cr0 cr : Bool) (fs : List HField) (hfit : ∀ f ∈ fs, f.Fits)
    (hlines : ∀ l ∈ fieldLines fs, l.length < size) (body : Bytes) (hshort : d.length + phrase.length + 10 < size)
    (hall : chunks.flatten = lines ((text e.2 ++ 0x20 :: (d ++ 0x20 :: phrase) ++ lineEnd cr0) :: fieldLines fs) ++ lineEnd cr ++ 10 :: body)
    (n : String) (hn : n ∈ ["from", "to", "contact"]) (a k : Bytes) (ha : (0x3b : UInt8) ∉ a) (hk : ArgKey k)
    (hv : (fieldValues fs (text n)).head? = some (a ++ 0x3b :: (k ++ [0x3d]))) :
    (parse U Sip.new ⟨[], chunks, size, fin⟩).1 = .panic := by
  rw [(C78_response_panics_iff U size hsize fin chunks e he d code hd hcode phrase hph cr0 cr fs hfit hlines body hshort hall).1]
  have hb := badParams_empty a k ha hk
  have hf : firstOf fs n = a ++ 0x3b :: (k ++ [0x3d]) := by rw [firstOf, hv]; rfl
  simp only [List.mem_cons, List.not_mem_nil, or_false] at hn
  rcases hn with rfl | rfl | rfl
  · exact .inl (by rw [hf]; exact hb)
  · exact .inr (.inl (by rw [hf]; exact hb))
  · exact .inr (.inr (.inl (by rw [hf]; exact hb)))

/-! ## Cases that meet the hypotheses -/

example : ¬ NoTransport (text "SIP/2.0/UDP host;rport=") ∧ newSIPVia (text "SIP/2.0/UDP host;rport=") = .panic := by
  refine ⟨?_, by decide +kernel⟩
  rintro ⟨a, r, h, ha⟩
  have h1 : fromSemi (text "SIP/2.0/UDP host;rport=") = 0x3b :: r := by
    rw [h, fromSemi_skip _ _ ha, fromSemi_skip (text "SIP/2.0/") _ (by decide +kernel), fromSemi_semi]
  have h2 : fromSemi (text "SIP/2.0/UDP host;rport=") = text ";rport=" := by decide +kernel
  have h3 : text ";rport=" = 0x3b :: text "rport=" := by decide +kernel
  rw [h2, h3] at h1
  obtain ⟨-, rfl⟩ := List.cons.inj h1
  have := congrArg List.length h
  have l1 : (text "SIP/2.0/UDP host;rport=").length = 23 := by decide +kernel
  have l2 : (text "SIP/2.0/").length = 8 := by decide +kernel
  have l3 : (text "rport=").length = 6 := by decide +kernel
  simp only [List.length_append, List.length_cons, l1, l2, l3] at this
  have h8 : a = (text "SIP/2.0/UDP host;rport=").take 8 := by rw [h, List.take_left' (by omega)]
  have h9 : (text "SIP/2.0/UDP host;rport=").drop 8 = text "SIP/2.0/" ++ 0x3b :: text "rport=" := by rw [h, List.drop_left' (by omega)]
  revert h9
  decide +kernel

/-- Without a transport the first semicolon is swallowed, and with it the argument that has no value. -/
example : NoTransport (text "SIP/2.0/;rport=") ∧ BadParams (text "SIP/2.0/;rport=") ∧
    newSIPVia (text "SIP/2.0/;rport=") = .ok ⟨[], text "rport=", [], []⟩ := by
  refine ⟨⟨[], text "rport=", by decide +kernel, by simp⟩, ?_, by decide +kernel⟩
  have h := badParams_empty (text "SIP/2.0/") (text "rport") (by decide +kernel)
    ⟨argText_ascii (by simp only [Printable]; decide +kernel) (by decide +kernel) (by decide +kernel), by decide +kernel, by decide +kernel⟩
  have e : text "SIP/2.0/;rport=" = text "SIP/2.0/" ++ 0x3b :: (text "rport" ++ [0x3d]) := by decide +kernel
  rwa [← e] at h

/-- C78 fails for every message, request or response, whatever its start line, whose second line begins with a space or a tab, for
every fragmentation and whatever follows. -/
theorem C78_fold_first_refuted (U : Unicode) (size : Nat) (st : Start) (hst : st.Fits size) (cr0 : Bool) (c : UInt8) (hc : c = 9 ∨ c = 0x20)
    (t rest : Bytes) (ht : (10 : UInt8) ∉ t) (hlen : t.length + 1 < size) (r : Rd) (hr : r.Ok) (hcap : r.cap = size)
    (hall : r.all = st.line ++ lineEnd cr0 ++ 10 :: c :: (t ++ 10 :: rest)) : (parse U Sip.new r).1 = .panic := by
  subst hcap
  obtain ⟨s1, s2, s3, s0, s4, s5, s6⟩ := start_line U r.cap st hst Sip.new
  have hc10 : c ≠ 10 := by rcases hc with rfl | rfl <;> decide
  have hcut : crlf c = false := by rcases hc with rfl | rfl <;> rfl
  obtain ⟨a, b, h1, h2, h3⟩ := trim_split crlf (c :: t)
  obtain ⟨t', ht'⟩ : ∃ t', trim crlf (c :: t) = c :: t' := by
    cases a with
    | nil =>
      cases htr : trim crlf (c :: t) with
      | nil =>
        rw [htr] at h1
        have := h3 c (by simp at h1; rw [← h1]; simp)
        rw [hcut] at this; simp at this
      | cons x y =>
        rw [htr] at h1
        simp at h1
        exact ⟨y, by rw [h1.1]⟩
    | cons x a =>
      have := h2 x (by simp)
      simp at h1
      rw [← h1.1, hcut] at this; simp at this
  have hlines : ∀ l ∈ [st.line ++ lineEnd cr0, c :: t], (10 : UInt8) ∉ l ∧ trim crlf l ≠ [] ∧ l.length < r.cap := by
    intro l hl
    simp only [List.mem_cons, List.not_mem_nil, or_false] at hl
    rcases hl with rfl | rfl
    · exact field_lines r.cap st.line cr0 [] (by simp) (by simp [fieldLines]) s1 s2 s3 _ (by simp)
    · refine ⟨?_, by rw [ht']; simp, by simp; omega⟩
      simp only [List.mem_cons, not_or]
      exact ⟨fun h => hc10 h.symm, ht⟩
  obtain ⟨r1, -, -, -, -, -, g4, -⟩ := lineLoop_lines U rest [st.line ++ lineEnd cr0, c :: t] r.all.length true [] 0 Sip.new r hr
    (by rw [hall]; simp) hlines
  have hlast : vals s0.hdr s0.last = [] := by
    have e1 : s0.hdr = [] := by simp [Sip.hdr, s5, Sip.new]
    rw [e1]; rfl
  have hrun : runLines U true ([st.line ++ lineEnd cr0, c :: t].map (trim crlf)) Sip.new = (.panic, s0) := by
    have hp : parseLine U true st.line Sip.new = (.ok (), s0) := s4
    rw [List.map_cons, List.map_cons, List.map_nil, trim_of_chars cr0 s1, ht', runLines, hp]
    simp only
    have hq : parseLine U false (c :: t') s0 = (.panic, s0) := by
      show parseHeader U (c :: t') _ = _
      rw [parseHeader.eq_def]
      simp only
      rw [if_pos hc, GoM.bind_apply]
      simp only [GoM.get, hlast]
      rfl
    rw [runLines, hq]
  rw [parse, show r.all.length + 2 = [st.line ++ lineEnd cr0, c :: t].length + r.all.length by simp; omega, g4 _ hrun]

example (U : Unicode) : (parse U Sip.new ⟨[], [text "BYE sip:a@b SIP/2.0\r", text "\n x: y\r\n", text "\r\n"], 4096, .eof⟩).1 = .panic :=
  C78_fold_first_refuted U 4096 (.request (3, "BYE") (text "sip:a@b")) ⟨by decide, by decide +kernel, valuesPresent_of (by decide +kernel), by decide +kernel⟩
    true 0x20 (.inr rfl) (text "x: y\r") (text "\r\n") (by decide +kernel) (by decide +kernel) _ ⟨by decide, by simp⟩ rfl (by decide +kernel)

/-- The fields of a message whose To value has an empty tag. -/
def emptyTag : List HField := [⟨text "TO", 1, 1, text "<sip:bob@biloxi.com>;tag=", 0, true, []⟩, ⟨text "Content-Length", 0, 1, text "0", 0, true, []⟩]

theorem emptyTag_fit : ∀ f ∈ emptyTag, f.Fits := by
  have h1 : ∀ f ∈ emptyTag, f.name ≠ [] ∧ ∀ b ∈ f.name, 0x21 ≤ b ∧ b ≤ 0x7e ∧ b ≠ 0x3a := by decide +kernel
  have h2 : ∀ f ∈ emptyTag, (∀ b ∈ f.value, b ≠ 13 ∧ b ≠ 10) ∧ f.value.head? ≠ some 0x20 ∧ f.value.getLast? ≠ some 0x20 := by
    decide +kernel
  have h3 : ∀ f ∈ emptyTag, f.conts = [] := by
    have : ∀ f ∈ emptyTag, f.conts.length = 0 := by decide +kernel
    exact fun f hf => List.length_eq_zero_iff.1 (this f hf)
  exact fun f hf => ⟨h1 f hf, ⟨(h2 f hf).1, (h2 f hf).2.1, (h2 f hf).2.2⟩, fun h => absurd (h3 f hf) h,
    fun c hc => by rw [h3 f hf] at hc; simp at hc⟩

example (U : Unicode) : (parse U Sip.new ⟨[], [text "SIP/2.0 486 Busy", text " Here\r\nTO :", text " <sip:bob@biloxi.com>;tag=\r\nContent-Length: 0\r\n\r\n"], 4096, .writer⟩).1 = .panic :=
  C78_empty_parameter_refuted U 4096 (by decide) .writer _ (2, "SIP/2.0") (by decide) (text "486") 486
    (by refine ⟨?_, ?_, ?_⟩ <;> decide +kernel) (by decide) (text "Busy Here") (by decide +kernel) true true emptyTag emptyTag_fit
    (by decide +kernel) [] (by decide +kernel) (by decide +kernel) "to" (by simp) (text "<sip:bob@biloxi.com>") (text "tag") (by decide +kernel)
    someKey_ok (by decide +kernel)

example (U : Unicode) : (parse U Sip.new ⟨[], [text "bye sip:a@b;x= sip/2.0\nTO : <sip:bob@biloxi.com>;tag=\r\nContent-Length: 0\r\n\r\n"], 4096, .eof⟩).1 = .panic :=
  ((C78_request_panics_iff U 4096 (by decide) .eof _ (3, "BYE") (by decide) (text "bye") (by simp only [SameText]; decide +kernel) (by decide +kernel)
    (text "sip:a@b;x=") (by decide +kernel) (2, "SIP/2.0") (by decide) (text "sip/2.0") (by simp only [SameText]; decide +kernel) (by decide +kernel)
    false true emptyTag emptyTag_fit (by decide +kernel) [] (by decide +kernel) (by decide +kernel)).1).2 (.inl (by
      have h := badParams_empty (text "sip:a@b") (text "x") (by decide +kernel)
        ⟨argText_ascii (by simp only [Printable]; decide +kernel) (by decide +kernel) (by decide +kernel), by decide +kernel, by decide +kernel⟩
      have e : text "sip:a@b;x=" = text "sip:a@b" ++ 0x3b :: (text "x" ++ [0x3d]) := by decide +kernel
      rwa [← e] at h))

end Verif.Props
