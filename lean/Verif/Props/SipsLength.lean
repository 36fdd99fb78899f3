import Verif.Props.SipsConn
/-!
# Properties of package `sips`: the content length (C118 to C120)
-/
namespace Verif.Props
open Verif.Sips Verif.Str Verif.Spec.Sips

theorem decimal_iff (d : Bytes) : ∀ (acc n : Nat), decimal d acc = some n ↔ (∀ b ∈ d, 48 ≤ b ∧ b ≤ 57) ∧ n = d.foldl (fun a b => a * 10 + (b.toNat - 48)) acc := by
  induction d with
  | nil => intro acc n; simp [decimal, eq_comm]
  | cons b d ih =>
    intro acc n
    rw [decimal]
    by_cases hb : 48 ≤ b ∧ b ≤ 57
    · rw [if_pos hb, ih, List.foldl_cons]
      constructor
      · rintro ⟨h1, h2⟩
        refine ⟨fun c hc => ?_, h2⟩
        rcases List.mem_cons.1 hc with rfl | hc
        · exact hb
        · exact h1 c hc
      · rintro ⟨h1, h2⟩
        exact ⟨fun c hc => h1 c (by simp [hc]), h2⟩
    · rw [if_neg hb]
      constructor
      · intro h; simp at h
      · rintro ⟨h1, -⟩; exact absurd (h1 b (by simp)) hb

/-- `strconv.Atoi`. -/
theorem atoi_iff (s : Bytes) (i : Int) : atoi s = .ok i ↔ IsInteger s i ∧ -2 ^ 63 ≤ i ∧ i < 2 ^ 63 := by
  have hd : ∀ d : Bytes, decimal d 0 = some (decVal d) ↔ ∀ b ∈ d, 48 ≤ b ∧ b ≤ 57 := fun d => by rw [decimal_iff]; simp [decVal]
  have hd' : ∀ (d : Bytes) n, decimal d 0 = some n → n = decVal d := fun d n h => ((decimal_iff d 0 n).1 h).2
  -- without a sign
  have plain : ∀ d : Bytes, (if d = [] then Res.err .other else match decimal d 0 with
      | none => .err .other
      | some n => if n < 2 ^ 63 then .ok (n : Int) else .err .other) = .ok i ↔
      d ≠ [] ∧ (∀ b ∈ d, 48 ≤ b ∧ b ≤ 57) ∧ i = decVal d ∧ i < 2 ^ 63 := by
    intro d
    by_cases h0 : d = []
    · simp [h0]
    rw [if_neg h0]
    cases hn : decimal d 0 with
    | none =>
      simp only [reduceCtorEq, false_iff]
      rintro ⟨-, h, -⟩
      rw [(hd d).2 h] at hn
      simp at hn
    | some n =>
      have := hd' d n hn
      subst this
      have hdig := (hd d).1 hn
      simp only
      split
      · rename_i hlt
        simp only [Res.ok.injEq]
        constructor
        · rintro rfl; exact ⟨h0, hdig, rfl, by omega⟩
        · rintro ⟨-, -, rfl, -⟩; rfl
      · rename_i hlt
        simp only [reduceCtorEq, false_iff]
        rintro ⟨-, -, rfl, h⟩
        omega
  have minus : ∀ d : Bytes, (if d = [] then Res.err .other else match decimal d 0 with
      | none => .err .other
      | some n => if n ≤ 2 ^ 63 then .ok (-(n : Int)) else .err .other) = .ok i ↔
      d ≠ [] ∧ (∀ b ∈ d, 48 ≤ b ∧ b ≤ 57) ∧ i = -(decVal d : Int) ∧ -2 ^ 63 ≤ i := by
    intro d
    by_cases h0 : d = []
    · simp [h0]
    rw [if_neg h0]
    cases hn : decimal d 0 with
    | none =>
      simp only [reduceCtorEq, false_iff]
      rintro ⟨-, h, -⟩
      rw [(hd d).2 h] at hn
      simp at hn
    | some n =>
      have := hd' d n hn
      subst this
      have hdig := (hd d).1 hn
      simp only
      split
      · rename_i hlt
        simp only [Res.ok.injEq]
        constructor
        · rintro rfl; exact ⟨h0, hdig, rfl, by omega⟩
        · rintro ⟨-, -, rfl, -⟩; rfl
      · rename_i hlt
        simp only [reduceCtorEq, false_iff]
        rintro ⟨-, -, rfl, h⟩
        omega
  have nodigit : ∀ c : UInt8, c = 0x2b ∨ c = 0x2d → ¬ (48 ≤ c ∧ c ≤ 57) := by
    rintro c (rfl | rfl) <;> decide
  cases s with
  | nil =>
    simp only [atoi, List.head?_nil, if_true, reduceCtorEq, false_or, if_false, false_iff]
    rintro ⟨⟨d, h1, -, ⟨h2, -⟩ | ⟨h2, -⟩ | ⟨h2, -⟩⟩, -⟩
    · exact h1 h2.symm
    · simp at h2
    · simp at h2
  | cons c s =>
    by_cases hm : c = 0x2d
    · subst hm
      refine Iff.trans (b := _) ?_ (Iff.trans (minus s) ?_)
      · by_cases hs : s = []
        · simp [atoi, hs]
        · cases hx : decimal s 0 <;> simp [atoi, hs, hx]
      constructor
      · rintro ⟨h1, h2, rfl, h3⟩
        exact ⟨⟨s, h1, h2, .inr (.inr ⟨rfl, rfl⟩)⟩, h3, by omega⟩
      · rintro ⟨⟨d, h1, h2, ⟨h3, -⟩ | ⟨h3, -⟩ | ⟨h3, h4⟩⟩, h5, h6⟩
        · subst h3; exact absurd (h2 _ (by simp)) (nodigit _ (.inr rfl))
        · simp at h3
        · obtain rfl := (List.cons.inj h3).2
          exact ⟨h1, h2, h4, h5⟩
    · by_cases hp : c = 0x2b
      · subst hp
        refine Iff.trans (b := _) ?_ (Iff.trans (plain s) ?_)
        · by_cases hs : s = []
          · simp [atoi, hs]
          · cases hx : decimal s 0 <;> simp [atoi, hs, hx]
        constructor
        · rintro ⟨h1, h2, rfl, h3⟩
          exact ⟨⟨s, h1, h2, .inr (.inl ⟨rfl, rfl⟩)⟩, by omega, h3⟩
        · rintro ⟨⟨d, h1, h2, ⟨h3, -⟩ | ⟨h3, h4⟩ | ⟨h3, -⟩⟩, h5, h6⟩
          · subst h3; exact absurd (h2 _ (by simp)) (nodigit _ (.inl rfl))
          · obtain rfl := (List.cons.inj h3).2
            exact ⟨h1, h2, h4, h6⟩
          · simp at h3
      · refine Iff.trans (b := _) ?_ (Iff.trans (plain (c :: s)) ?_)
        · cases hx : decimal (c :: s) 0 <;> simp [atoi, hm, hp, hx]
        constructor
        · rintro ⟨h1, h2, rfl, h3⟩
          exact ⟨⟨c :: s, h1, h2, .inl ⟨rfl, rfl⟩⟩, by omega, h3⟩
        · rintro ⟨⟨d, h1, h2, ⟨h3, h4⟩ | ⟨h3, -⟩ | ⟨h3, -⟩⟩, h5, h6⟩
          · subst h3; exact ⟨h1, h2, h4, h6⟩
          · exact absurd (List.cons.inj h3).1 hp
          · exact absurd (List.cons.inj h3).1 hm

/-- A message is accepted only with a content length. -/
theorem parse_length (U : Unicode) (size : Nat) (hsize : 2 ≤ size) (r r' : Rd) (hr : r.Ok) (hcap : r.cap = size) (m : Message)
    (hst : m.start.Fits size) (ha : ∀ f ∈ m.fields, f.Fits) (hshort : ∀ l ∈ fieldLines m.fields, l.length < size) (rest : Bytes)
    (hall : r.all = m.head ++ rest) (s : Sip) (hp : parse U Sip.new r = (.ok (), s, r')) :
    ∃ i, atoi ((fieldValues m.fields (text "content-length")).head?.getD []) = .ok i := by
  obtain ⟨s1, s2, s3, s0, s4, s5, -⟩ := start_line U size m.start hst Sip.new
  subst hcap
  have hls := field_lines r.cap m.start.line true m.fields ha hshort s1 s2 s3
  obtain ⟨h', last, g1, g2⟩ := runLines_fields U m.fields [] s0 [] (by rw [s5]; rfl) shows_nil ha
  have t0 := trim_of_chars true s1
  have hrun : runLines U true (((m.start.line ++ lineEnd true) :: fieldLines m.fields).map (trim crlf)) Sip.new =
      (.ok (), { s0 with headers := some h', last := last }) := by
    have hp : parseLine U true m.start.line Sip.new = (.ok (), s0) := s4
    rw [List.map_cons, t0, runLines, hp]
    exact g1
  obtain ⟨r1, k1, k2, k2', k4, k5⟩ := Sips.parse_blank U Sip.new _ Sip.new _ hr _ [13] rest (by rw [hall, head_lines]) (by simp) (by simp; omega) hls hrun
  rw [k5, finish] at hp
  obtain ⟨c, q, f, t, v, hfr⟩ := fillHeader_frame U { s0 with headers := some h', last := last }
  rcases hf : fillHeader U { s0 with headers := some h', last := last } with ⟨_ | e | _ | _, s2⟩ <;> rw [hf] at hp hfr
  · simp only at hp hfr
    subst hfr
    have hcl : ∃ i, getContentLength U h' = .ok i := by
      rcases atoi_total (getFirstHeader U h' b!"content-length") with h | h
      · exact h
      · have h : getContentLength U h' = .err .other := h
        rw [fillBody, show ∀ a b c d e, Sip.hdr { s0 with headers := some h', last := last, contact := a, cseq := b, fromU := c, toU := d, via := e } = h' from
          fun _ _ _ _ _ => rfl, h] at hp
        simp at hp
    obtain ⟨i, hi⟩ := hcl
    refine ⟨i, ?_⟩
    have hg := (g2.getHeader U b!"content-length").2
    rw [lower_cl, List.nil_append] at hg
    rw [getContentLength, hg] at hi
    rw [← hi, ← fieldValues_eq, show b!"content-length" = text "content-length" by decide +kernel,
      show (text "content-length").map lowerAscii = text "content-length" by decide +kernel]
  all_goals simp at hp

/-! ## C118 -/

/-- C118 fails: a message without a content length is never accepted, not even if it ends with the data. -/
theorem C118_no_length_refuted (U : Unicode) (size : Nat) (hsize : 2 ≤ size) (r : Rd) (hr : r.Ok) (hcap : r.cap = size) (m : Message)
    (hst : m.start.Fits size) (ha : ∀ f ∈ m.fields, f.Fits) (hshort : ∀ l ∈ fieldLines m.fields, l.length < size)
    (hno : fieldValues m.fields (text "content-length") = []) (rest : Bytes) (hall : r.all = m.wire ++ rest) :
    (parse U Sip.new r).1 ≠ .ok () := by
  intro h
  rcases hp : parse U Sip.new r with ⟨res, s, r'⟩
  rw [hp] at h
  have h : res = .ok () := h
  subst h
  obtain ⟨i, hi⟩ := parse_length U size hsize r r' hr hcap m hst ha hshort (m.body ++ rest) (by rw [hall, Message.wire, List.append_assoc]) s hp
  rw [hno] at hi
  simp [atoi] at hi

/-! ## C120 -/

/-- C120 (partial): a message is accepted only if its first content length is a number of the range of `int`.  (Missing: numbers below
zero, see `C120_negative_refuted`.) -/
theorem C120_number_partial (U : Unicode) (size : Nat) (hsize : 2 ≤ size) (r r' : Rd) (hr : r.Ok) (hcap : r.cap = size) (m : Message)
    (hst : m.start.Fits size) (ha : ∀ f ∈ m.fields, f.Fits) (hshort : ∀ l ∈ fieldLines m.fields, l.length < size) (rest : Bytes)
    (hall : r.all = m.wire ++ rest) (s : Sip) (hp : parse U Sip.new r = (.ok (), s, r')) :
    ∃ d i, (fieldValues m.fields (text "content-length")).head? = some d ∧ IsInteger d i ∧ -2 ^ 63 ≤ i ∧ i < 2 ^ 63 := by
  obtain ⟨i, hi⟩ := parse_length U size hsize r r' hr hcap m hst ha hshort (m.body ++ rest) (by rw [hall, Message.wire, List.append_assoc]) s hp
  cases hv : (fieldValues m.fields (text "content-length")).head? with
  | none => rw [hv] at hi; simp [atoi] at hi
  | some d =>
    rw [hv] at hi
    exact ⟨d, i, rfl, (atoi_iff d i).1 hi⟩

/-- C120 (partial): over a datagram or at the end of a stream, a message is accepted exactly if its first content length is a number
of the range of `int`, with or without a sign, with or without zeros in front, and this number is then what the message reports.
(Missing: numbers below zero, and what is read, see `C120_negative_refuted`.) -/
theorem C120_accepted_partial (U : Unicode) (size : Nat) (hsize : 2 ≤ size) (r : Rd) (hr : r.Ok) (hcap : r.cap = size) (hfin : r.final = .eof) (m : Message)
    (hst : m.start.Fits size) (ha : ∀ f ∈ m.fields, f.Fits) (hshort : ∀ l ∈ fieldLines m.fields, l.length < size)
    (haddr : ∀ n ∈ [text "from", text "to", text "contact", text "via"], ∀ v, (fieldValues m.fields n).head? = some v → ValuesPresent v)
    (rest : Bytes) (hall : r.all = m.wire ++ rest) :
    ((parse U Sip.new r).1 = .ok () ↔ ∃ d i, (fieldValues m.fields (text "content-length")).head? = some d ∧ IsInteger d i ∧ -2 ^ 63 ≤ i ∧ i < 2 ^ 63) ∧
      ∀ d i, (fieldValues m.fields (text "content-length")).head? = some d → IsInteger d i → -2 ^ 63 ≤ i → i < 2 ^ 63 →
        ∃ s r', parse U Sip.new r = (.ok (), s, r') ∧ getContentLength U s.hdr = .ok i := by
  have key : ∀ d i, (fieldValues m.fields (text "content-length")).head? = some d → IsInteger d i → -2 ^ 63 ≤ i → i < 2 ^ 63 →
        ∃ s r', parse U Sip.new r = (.ok (), s, r') ∧ getContentLength U s.hdr = .ok i := by
    intro d i hd hi h1 h2
    obtain ⟨s, r', k, h', g1, -, -, g3, -⟩ := receiveMessageInto U size hsize r hr hcap Sip.new [] [] rfl shows_nil m hst ha hshort
      (by simpa using haddr) d i (by simpa using hd) ((atoi_iff d i).2 ⟨hi, h1, h2⟩) (m.body ++ rest) (.inl hfin)
      (by rw [hall, Message.wire, List.append_assoc])
    exact ⟨s, r', g1, g3⟩
  refine ⟨⟨fun h => ?_, ?_⟩, key⟩
  · rcases hp : parse U Sip.new r with ⟨res, s, r'⟩
    rw [hp] at h
    have h : res = .ok () := h
    subst h
    exact C120_number_partial U size hsize r r' hr hcap m hst ha hshort rest hall s hp
  · rintro ⟨d, i, hd, hi, h1, h2⟩
    obtain ⟨s, r', g, -⟩ := key d i hd hi h1 h2
    rw [g]

/-- C120 fails: a content length below zero is accepted, and no body is read. -/
theorem C120_negative_refuted (U : Unicode) (size : Nat) (hsize : 2 ≤ size) (r : Rd) (hr : r.Ok) (hcap : r.cap = size) (m : Message)
    (hst : m.start.Fits size) (ha : ∀ f ∈ m.fields, f.Fits) (hshort : ∀ l ∈ fieldLines m.fields, l.length < size)
    (haddr : ∀ n ∈ [text "from", text "to", text "contact", text "via"], ∀ v, (fieldValues m.fields n).head? = some v → ValuesPresent v)
    (d : Bytes) (i : Int) (hd : (fieldValues m.fields (text "content-length")).head? = some d) (hi : IsInteger d i) (h1 : -2 ^ 63 ≤ i) (h2 : i < 0)
    (rest : Bytes) (hall : r.all = m.wire ++ rest) :
    ∃ s r', parse U Sip.new r = (.ok (), s, r') ∧ s.payload = [13, 10] ∧ r'.all = m.body ++ rest := by
  obtain ⟨s, r', k, h', g1, -, -, -, g4, g5, g6, -⟩ := receiveMessageInto U size hsize r hr hcap Sip.new [] [] rfl shows_nil m hst ha hshort
    (by simpa using haddr) d i (by simpa using hd) ((atoi_iff d i).2 ⟨hi, h1, by omega⟩) (m.body ++ rest) (.inr (by omega))
    (by rw [hall, Message.wire, List.append_assoc])
  have hk := g6 (by omega)
  subst hk
  exact ⟨s, r', g1, by simpa using g4, by simpa using g5⟩

/-! ## C119 -/

/-- C119 fails: a tab behind the colon becomes part of the value. -/
theorem C119_tab_refuted (U : Unicode) (size : Nat) (hsize : 2 ≤ size) (r : Rd) (hr : r.Ok) (hcap : r.cap = size) (m : Message)
    (hst : m.start.Fits size) (ha : Acceptable size m.fields) (hdecl : Declares m.fields m.body.length) (rest : Bytes)
    (hall : r.all = m.wire ++ rest) (f : HField) (hf : f ∈ m.fields) (u : Bytes) (htab : f.value = 9 :: u) (hc : f.conts = []) :
    ∃ s r', parse U Sip.new r = (.ok (), s, r') ∧ 9 :: u ∈ getHeader U s.hdr f.name := by
  obtain ⟨s, r', k, g1, -, g2, -⟩ := receiveMessage U size hsize r hr hcap m hst ha _ hdecl (m.body ++ rest) (.inr (by simp; omega))
    (by rw [hall, Message.wire, List.append_assoc])
  refine ⟨s, r', g1, ?_⟩
  have hname : ∀ b ∈ f.name, b < 0x80 := by
    intro b hb
    have := ((ha.fits f hf).name.2 b hb).2.1
    rw [UInt8.le_iff_toNat_le] at this
    rw [UInt8.lt_iff_toNat_lt]
    simp at this ⊢
    omega
  rw [g2.all f.name hname, fieldValues, List.mem_map]
  refine ⟨f, by simp [hf], ?_⟩
  simp [HField.den, hc, htab]

/-- C119 fails: a message whose content length has a tab before the number is not accepted. -/
theorem C119_length_refuted (U : Unicode) (size : Nat) (hsize : 2 ≤ size) (r : Rd) (hr : r.Ok) (hcap : r.cap = size) (m : Message)
    (hst : m.start.Fits size) (ha : ∀ f ∈ m.fields, f.Fits) (hshort : ∀ l ∈ fieldLines m.fields, l.length < size) (u : Bytes)
    (htab : (fieldValues m.fields (text "content-length")).head? = some (9 :: u)) (rest : Bytes) (hall : r.all = m.wire ++ rest) :
    (parse U Sip.new r).1 ≠ .ok () := by
  intro h
  rcases hp : parse U Sip.new r with ⟨res, s, r'⟩
  rw [hp] at h
  have h : res = .ok () := h
  subst h
  obtain ⟨d, i, h1, ⟨e, -, h2, h3⟩, -⟩ := C120_number_partial U size hsize r r' hr hcap m hst ha hshort rest hall s hp
  rw [htab, Option.some.injEq] at h1
  subst h1
  rcases h3 with ⟨h3, -⟩ | ⟨h3, -⟩ | ⟨h3, -⟩
  · subst h3
    exact absurd (h2 9 (by simp)) (by decide)
  · simp at h3
  · simp at h3

/-- A message with one field, for the examples. -/
def oneField (n v : String) : Message := ⟨.request (1, "INVITE") (text "sip:bob@biloxi.com"), [⟨text n, 0, 1, text v, 0, true, []⟩], text "hello"⟩

theorem oneField_ok (n v : String) (h : (n, v) ∈ [("Subject", "x"), ("Content-Length", "-1"), ("Content-Length", "\t5"), ("Content-Length", "+05")]) :
    (oneField n v).start.Fits 4096 ∧ (∀ f ∈ (oneField n v).fields, f.Fits) ∧ (∀ l ∈ fieldLines (oneField n v).fields, l.length < 4096) := by
  refine ⟨⟨by decide, by decide +kernel, valuesPresent_of (by decide +kernel), by decide +kernel⟩, ?_⟩
  have hf : ∀ f ∈ (oneField n v).fields, (f.name ≠ [] ∧ ∀ b ∈ f.name, 0x21 ≤ b ∧ b ≤ 0x7e ∧ b ≠ 0x3a) ∧
      ((∀ b ∈ f.value, b ≠ 13 ∧ b ≠ 10) ∧ f.value.head? ≠ some 0x20 ∧ f.value.getLast? ≠ some 0x20) ∧ f.conts.length = 0 := by
    simp only [List.mem_cons, Prod.mk.injEq, List.not_mem_nil, or_false] at h
    rcases h with ⟨rfl, rfl⟩ | ⟨rfl, rfl⟩ | ⟨rfl, rfl⟩ | ⟨rfl, rfl⟩ <;> decide +kernel
  have hs : ∀ l ∈ fieldLines (oneField n v).fields, l.length < 4096 := by
    simp only [List.mem_cons, Prod.mk.injEq, List.not_mem_nil, or_false] at h
    rcases h with ⟨rfl, rfl⟩ | ⟨rfl, rfl⟩ | ⟨rfl, rfl⟩ | ⟨rfl, rfl⟩ <;> decide +kernel
  exact ⟨fun f hm => ⟨(hf f hm).1, ⟨(hf f hm).2.1.1, (hf f hm).2.1.2.1, (hf f hm).2.1.2.2⟩,
      fun h => absurd (List.length_eq_zero_iff.1 (hf f hm).2.2) h, by rw [List.length_eq_zero_iff.1 (hf f hm).2.2]; simp⟩, hs⟩

theorem noAddr (v : String) : ∀ n ∈ [text "from", text "to", text "contact", text "via"], ∀ w, (fieldValues (oneField "Content-Length" v).fields n).head? = some w →
    ValuesPresent w := by
  intro n hn w hw
  have : ∀ n ∈ [text "from", text "to", text "contact", text "via"], ((text "Content-Length").map lowerAscii == n.map lowerAscii) = false := by decide +kernel
  simp [fieldValues, oneField, this n hn] at hw

/-- A sign and a zero in front of the number. -/
example (U : Unicode) : ∃ s r', parse U Sip.new ⟨[], [(oneField "Content-Length" "+05").wire], 4096, .eof⟩ = (.ok (), s, r') ∧
    getContentLength U s.hdr = .ok 5 :=
  let ⟨h1, h2, h3⟩ := oneField_ok "Content-Length" "+05" (by decide)
  (C120_accepted_partial U 4096 (by decide) ⟨[], [(oneField "Content-Length" "+05").wire], 4096, .eof⟩ ⟨by decide, by decide⟩ rfl rfl
    (oneField "Content-Length" "+05") h1 h2 h3 (noAddr _) [] (by simp [Rd.all])).2 (text "+05") 5 (by decide +kernel)
    ⟨text "05", by decide +kernel, by decide +kernel, .inr (.inl ⟨by decide +kernel, by decide +kernel⟩)⟩ (by decide) (by decide)

/-- A message with a tab, for the examples. -/
def tabMessage : Message := ⟨.request (1, "INVITE") (text "sip:bob@biloxi.com"),
  [⟨text "Subject", 0, 0, text "\tx", 0, true, []⟩, ⟨text "Content-Length", 0, 1, text "5", 0, true, []⟩], text "hello"⟩

theorem tabMessage_ok : tabMessage.start.Fits 4096 ∧ Acceptable 4096 tabMessage.fields ∧ Declares tabMessage.fields tabMessage.body.length := by
  refine ⟨⟨by decide, by decide +kernel, valuesPresent_of (by decide +kernel), by decide +kernel⟩, ?_⟩
  have hf : ∀ f ∈ tabMessage.fields, (f.name ≠ [] ∧ ∀ b ∈ f.name, 0x21 ≤ b ∧ b ≤ 0x7e ∧ b ≠ 0x3a) ∧
      ((∀ b ∈ f.value, b ≠ 13 ∧ b ≠ 10) ∧ f.value.head? ≠ some 0x20 ∧ f.value.getLast? ≠ some 0x20) ∧ f.conts.length = 0 := by decide +kernel
  have hs : ∀ l ∈ fieldLines tabMessage.fields, l.length < 4096 := by decide +kernel
  have ha : ∀ m ∈ [text "from", text "to", text "contact", text "via"], (fieldValues tabMessage.fields m).head? = none := by decide +kernel
  have hd : (fieldValues tabMessage.fields (text "content-length")).head? = some (text "5") ∧ IsDecimal (text "5") 5 ∧ 5 < 2 ^ 63 :=
    ⟨by decide +kernel, by simp only [IsDecimal]; decide +kernel, by decide⟩
  exact ⟨⟨fun f hm => ⟨(hf f hm).1, ⟨(hf f hm).2.1.1, (hf f hm).2.1.2.1, (hf f hm).2.1.2.2⟩,
      fun h => absurd (List.length_eq_zero_iff.1 (hf f hm).2.2) h, by rw [List.length_eq_zero_iff.1 (hf f hm).2.2]; simp⟩,
    hs, fun m hm v hv => by rw [ha m hm] at hv; simp at hv, _, _, hd⟩, _, hd.1, by
      rw [show tabMessage.body.length = 5 by decide +kernel]; exact hd.2.1⟩

/-- A request over a datagram: the message ends with the data. -/
example (U : Unicode) : (parse U Sip.new ⟨[], [(oneField "Subject" "x").wire], 4096, .eof⟩).1 ≠ .ok () :=
  let ⟨h1, h2, h3⟩ := oneField_ok "Subject" "x" (by decide)
  C118_no_length_refuted U 4096 (by decide) _ ⟨by decide, by decide⟩ rfl _ h1 h2 h3 (by decide +kernel) [] (by simp [Rd.all])

/-- A content length of minus one. -/
example (U : Unicode) : ∃ s r', parse U Sip.new ⟨[], [(oneField "Content-Length" "-1").wire], 4096, .eof⟩ = (.ok (), s, r') ∧
    s.payload = [13, 10] ∧ r'.all = text "hello" ++ [] :=
  let ⟨h1, h2, h3⟩ := oneField_ok "Content-Length" "-1" (by decide)
  C120_negative_refuted U 4096 (by decide) ⟨[], [(oneField "Content-Length" "-1").wire], 4096, .eof⟩ ⟨by decide, by decide⟩ rfl
    (oneField "Content-Length" "-1") h1 h2 h3 (noAddr _) (text "-1") (-1) (by decide +kernel)
    ⟨text "1", by decide +kernel, by decide +kernel, .inr (.inr ⟨by decide +kernel, by decide +kernel⟩)⟩ (by decide) (by decide) [] (by simp [Rd.all])

/-- A subject with a tab behind the colon. -/
example (U : Unicode) : ∃ s r', parse U Sip.new ⟨[], [tabMessage.wire], 4096, .eof⟩ = (.ok (), s, r') ∧
    9 :: text "x" ∈ getHeader U s.hdr (text "Subject") :=
  C119_tab_refuted U 4096 (by decide) ⟨[], [tabMessage.wire], 4096, .eof⟩ ⟨by decide, by decide⟩ rfl tabMessage tabMessage_ok.1 tabMessage_ok.2.1
    tabMessage_ok.2.2 [] (by simp [Rd.all]) ⟨text "Subject", 0, 0, text "\tx", 0, true, []⟩ (by simp [tabMessage]) (text "x") (by decide +kernel) rfl

/-- A tab before the content length. -/
example (U : Unicode) : (parse U Sip.new ⟨[], [(oneField "Content-Length" "\t5").wire], 4096, .eof⟩).1 ≠ .ok () :=
  let ⟨h1, h2, h3⟩ := oneField_ok "Content-Length" "\t5" (by decide)
  C119_length_refuted U 4096 (by decide) _ ⟨by decide, by decide⟩ rfl _ h1 h2 h3 (text "5") (by decide +kernel) [] (by simp [Rd.all])

end Verif.Props
