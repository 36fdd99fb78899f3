import Verif.Props.SipsMore
/-!
# Properties of package `sips`: status lines, headers with several values, conversions, reuse, long lines (C102 to C106)
-/
namespace Verif.Props
open Verif.Sips Verif.Str Verif.Spec.Sips

/-! ## C102 -/

/-- C102 (partial): the reason phrases are those of RFC 3261, except for 480 and 504. -/
theorem C102_phrases_partial (e : Int × String) (he : e ∈ reasonPhrases) (h1 : e.1 ≠ 480) (h2 : e.1 ≠ 504) :
    statusText e.1 = text e.2 := by
  have : ∀ e ∈ reasonPhrases, e.1 = 480 ∨ e.1 = 504 ∨ statusText e.1 = text e.2 := by decide +kernel
  rcases this e he with h | h | h
  · exact absurd h h1
  · exact absurd h h2
  · exact h

example : statusText 481 = text "Call/Transaction Does Not Exist" := C102_phrases_partial (481, _) (by decide) (by decide) (by decide)

/-- C102: codes outside the table have no phrase. -/
theorem C102_unlisted (code : Int) (h : ∀ e ∈ reasonPhrases, e.1 ≠ code) : statusText code = [] := by
  have key : ∀ e ∈ statusTexts, ∃ e' ∈ reasonPhrases, e'.1 = e.1 := by decide +kernel
  rw [statusText]
  cases hl : statusTexts.lookup code with
  | none => rfl
  | some v =>
    obtain ⟨l1, l2, h', -⟩ := List.lookup_eq_some_iff.1 hl
    obtain ⟨e', g1, g2⟩ := key (code, v) (by rw [h']; simp)
    exact absurd g2 (h e' g1)

example : statusText 202 = [] := C102_unlisted 202 (by decide)

/-- C102 fails for 480 and 504. -/
theorem C102_phrases_refuted : ∃ e ∈ reasonPhrases, ∃ f ∈ reasonPhrases, e.1 = 480 ∧ f.1 = 504 ∧ statusText e.1 = text "No Response" ∧
    statusText e.1 ≠ text e.2 ∧ statusText f.1 = text "Server Timeout" ∧ statusText f.1 ≠ text f.2 :=
  ⟨(480, "Temporarily Unavailable"), by decide, (504, "Server Time-out"), by decide, by decide +kernel⟩

/-- C102 (partial): a response starts with version, code and the phrase of the code. -/
theorem C102_status_line_partial (U : Unicode) (order : Hdr → Hdr) (s : Sip) (hs : s.isResponse = true) (hh : s.headers ≠ none)
    (v : UInt8 × String) (hv : v ∈ versions) (hver : s.version = v.1) (e : Int × String) (he : e ∈ reasonPhrases) (h1 : e.1 ≠ 480)
    (h2 : e.1 ≠ 504) (hc : s.responseCode = e.1) :
    ∃ d n rest, IsDecimal d n ∧ (n : Int) = e.1 ∧
      (s.bytes U order).1 = .ok (text v.2 ++ 0x20 :: (d ++ 0x20 :: (text e.2 ++ 13 :: 10 :: rest))) := by
  have hpos : ∀ e ∈ reasonPhrases, 0 ≤ e.1 := by decide
  have hver' : ∀ v ∈ versions, versionString v.1 = text v.2 := by decide +kernel
  have hd := itoa_nat e.1.toNat
  have hn : ((e.1.toNat : Nat) : Int) = e.1 := Int.toNat_of_nonneg (hpos e he)
  rw [hn] at hd
  cases hhd : s.headers with
  | none => exact absurd hhd hh
  | some h =>
    refine ⟨_, _, hdrBytes (order (setContentLength U h s.payload.length)) ++ (if s.payload.length > 0 then b!"\r\n" ++ s.payload else []),
      hd, hn, ?_⟩
    rw [Sip.bytes, firstLineBytes, hs, hhd]
    simp only [if_true]
    rw [hver, hver' v hv, hc, statusString, C102_phrases_partial e he h1 h2]
    simp only [List.append_assoc, List.cons_append, List.nil_append]

example (U : Unicode) : ∃ d n rest, IsDecimal d n ∧ (n : Int) = 486 ∧
    ((makeResponse 486 none []).bytes U id).1 = .ok (text "SIP/2.0" ++ 0x20 :: (d ++ 0x20 :: (text "Busy Here" ++ 13 :: 10 :: rest))) :=
  C102_status_line_partial U id (makeResponse 486 none []) rfl (by decide) (2, "SIP/2.0") (by decide) rfl (486, "Busy Here") (by decide)
    (by decide) (by decide) rfl

/-- C102 fails for every response that carries a phrase of its own: the bytes written do not depend on it. -/
theorem C102_own_phrase_refuted (U : Unicode) (order : Hdr → Hdr) (s : Sip) (hs : s.isResponse = true) (p q : Bytes) :
    (({ s with responseStatus := p } : Sip).bytes U order).1 = (({ s with responseStatus := q } : Sip).bytes U order).1 := by
  simp only [Sip.bytes, firstLineBytes, hs, if_true]
  cases s.headers <;> rfl

/-- A response received with another phrase than the usual one. -/
example : (parseBytes plainU Sip.new (text "SIP/2.0 404 No Such User\r\ncontent-length: 0\r\n\r\n")).2.responseStatus = text "No Such User" ∧
    (((parseBytes plainU Sip.new (text "SIP/2.0 404 No Such User\r\ncontent-length: 0\r\n\r\n")).2.setBody []).bytes plainU id).1 =
      .ok (text "SIP/2.0 404 Not Found\r\ncontent-length: 0\r\n") := by decide +kernel

/-! ## C103 -/

/-- The field that `SIPHeader.Bytes` writes for a header: its further values on continuation lines. -/
def sentField (e : Bytes × List Bytes) : HField :=
  ⟨e.1, 0, 1, e.2.headD [], 0, true, e.2.tail.map fun v => ⟨[0x20], v, true⟩⟩

theorem sentField_lines (e : Bytes × List Bytes) (h : e.2 ≠ []) : headerItem e = joinLines (sentField e).lines := by
  obtain ⟨k, vs⟩ := e
  cases vs with
  | nil => exact absurd rfl h
  | cons v vs =>
    simp only [headerItem, sentField, HField.lines, List.headD_cons, List.tail_cons, List.map_cons, List.flatten_cons, joinLines_cons,
      List.map_map]
    simp only [List.replicate, lineEnd, if_true]
    have : ∀ vs : List Bytes, joinLines (vs.map (Cont.line ∘ fun v => (⟨[0x20], v, true⟩ : Cont))) =
        (vs.map fun v => b!" " ++ v ++ b!"\r\n").flatten := by
      intro vs
      induction vs with
      | nil => rfl
      | cons v vs ih => rw [List.map_cons, joinLines_cons, ih]; simp [Cont.line, lineEnd]
    rw [this]
    simp

theorem hdrBytes_sent (h : Hdr) (hne : ∀ e ∈ h, e.2 ≠ []) : hdrBytes h = joinLines (fieldLines (h.map sentField)) := by
  induction h with
  | nil => rfl
  | cons e h ih =>
    rw [hdrBytes, List.map_cons, List.flatten_cons, sentField_lines e (hne e (by simp))]
    have := ih fun e' he' => hne e' (by simp [he'])
    rw [hdrBytes] at this
    rw [this, fieldLines, fieldLines, List.map_cons, List.map_cons, List.flatten_cons, joinLines_append]

theorem sentField_fits {e : Bytes × List Bytes} (hk : HeaderName e.1) (hne : e.2 ≠ []) (hv : ∀ v ∈ e.2, LineText v) : (sentField e).Fits := by
  obtain ⟨k, vs⟩ := e
  cases vs with
  | nil => exact absurd rfl hne
  | cons v vs =>
    have hv0 := hv v (by simp)
    refine ⟨⟨hk.nonempty, fun b hb => ⟨(hk.chars b hb).1, (hk.chars b hb).2.1, (hk.chars b hb).2.2.1⟩⟩, ⟨hv0.chars, ?_, ?_⟩,
      fun _ => hv0.nonempty, ?_⟩
    · intro h
      have := (hv0.first _ h).1
      revert this; decide
    · intro h
      have := (hv0.last _ h).1
      revert this; decide
    · intro c hc
      obtain ⟨x, hx, rfl⟩ := List.mem_map.1 hc
      have hx := hv x (by simp only [List.mem_cons]; exact .inr (by simpa [sentField] using hx))
      exact ⟨⟨by simp, by simp⟩, ⟨hx.nonempty, hx.chars⟩, hx.first, hx.last⟩

/-- The values of a header joined by spaces. -/
def joined : List Bytes → Bytes
  | [] => []
  | v :: vs => v ++ (vs.map fun w => 0x20 :: w).flatten

theorem sentField_den (e : Bytes × List Bytes) : (sentField e).den = joined e.2 := by
  obtain ⟨k, vs⟩ := e
  cases vs with
  | nil => rfl
  | cons v vs => simp [HField.den, sentField, joined, Function.comp_def]

/-- A header map with one or more values for every name. -/
structure ManyValues (h : Hdr) : Prop where
  distinct : (h.map Prod.fst).Nodup
  names : ∀ e ∈ h, HeaderName e.1
  nonempty : ∀ e ∈ h, e.2 ≠ []
  values : ∀ e ∈ h, ∀ v ∈ e.2, LineText v
  short : ∀ e ∈ h, ∀ v ∈ e.2, e.1.length + v.length + 4 ≤ 4096
  addresses : ∀ e ∈ h, (e.1 = text "contact" ∨ e.1 = text "from" ∨ e.1 = text "to" ∨ e.1 = text "via") →
    ValuesPresent (joined e.2)

theorem values_of_entry {h : Hdr} (hd : (h.map Prod.fst).Nodup) (hn : ∀ e ∈ h, HeaderName e.1) {e : Bytes × List Bytes} (he : e ∈ h) :
    fieldValues (h.map sentField) e.1 = [joined e.2] := by
  have hlow : ∀ {k : Bytes}, HeaderName k → k.map lowerAscii = k := by
    intro k hk
    rw [← toLower_ascii ⟨id, id, id⟩ (fun b hb => (HeaderName.not_crlf hk hb).2.2.2.2)]
    exact toLower_name _ hk
  have h1 : fieldValues (h.map sentField) e.1 = (h.filter fun x => x.1 == e.1).map fun x => joined x.2 := by
    rw [fieldValues, List.filter_map, List.map_map]
    have : h.filter ((fun f : HField => f.name.map lowerAscii == e.1.map lowerAscii) ∘ sentField) = h.filter fun x => x.1 == e.1 := by
      apply List.filter_congr
      intro x hx
      show (x.1.map lowerAscii == e.1.map lowerAscii) = _
      rw [hlow (hn x hx), hlow (hn e he)]
    rw [this]
    exact List.map_congr_left fun x _ => sentField_den x
  rw [h1]
  have h2 : h.filter (fun x => x.1 == e.1) = [e] := by
    clear h1 hlow hn
    induction h with
    | nil => simp at he
    | cons x h ih =>
      rw [List.map_cons, List.nodup_cons] at hd
      rcases List.mem_cons.1 he with rfl | he
      · rw [List.filter_cons_of_pos (by simp)]
        congr 1
        apply List.filter_eq_nil_iff.2
        intro y hy hc
        rw [beq_iff_eq] at hc
        exact hd.1 (hc ▸ List.mem_map.2 ⟨y, hy, rfl⟩)
      · rw [List.filter_cons_of_neg, ih hd.2 he]
        rw [beq_iff_eq]
        intro hc
        exact hd.1 (hc ▸ List.mem_map.2 ⟨e, he, rfl⟩)
  rw [h2]
  rfl

theorem values_of_none {h : Hdr} {n : Bytes} (hno : ∀ e ∈ h, e.1.map lowerAscii ≠ n.map lowerAscii) : fieldValues (h.map sentField) n = [] := by
  rw [fieldValues, List.filter_map, List.map_map, List.map_eq_nil_iff, List.filter_eq_nil_iff]
  intro x hx hc
  exact hno x hx (by simpa [sentField] using hc)

/-- All the values of a header come back as a single one, joined by spaces. -/
theorem sent_values (U : Unicode) (order : Hdr → Hdr) (ho : ∀ x, (order x).Perm x) (e : Int × String)
    (he : e ∈ reasonPhrases) (h : Hdr) (hne : h ≠ []) (hh : ManyValues h) (body : Bytes) (hb : body ≠ []) (hbody : body.length < 2 ^ 63) :
    ∃ w m, ((makeResponse e.1 (some h) body).bytes U order).1 = .ok w ∧ parseBytes U Sip.new w = (.ok (), m) ∧
      ∀ k vs, (k, vs) ∈ h → k ≠ text "content-length" → getHeader U m.hdr k = [joined vs] := by
  have hcl : text "content-length" = b!"content-length" := by decide +kernel
  have hclname : HeaderName b!"content-length" := ⟨by decide, by decide⟩
  have hset : setContentLength U h body.length = mset h b!"content-length" [itoa body.length] := by
    rw [setContentLength, setFirstHeader, toLower_name U hclname]
  generalize hg : order (setContentLength U h body.length) = g
  have hmem : ∀ x, x ∈ g ↔ x = (b!"content-length", [itoa body.length]) ∨ (x ∈ h ∧ x.1 ≠ b!"content-length") := by
    intro x
    rw [← hg, (ho _).mem_iff, hset, mem_mset_iff]
  have hgd : (g.map Prod.fst).Nodup := by
    rw [← hg, ((ho _).map Prod.fst).nodup_iff, hset]
    exact mset_keys_nodup _ _ hh.distinct
  have hdec := itoa_nat body.length
  have hdigit : ∀ b ∈ itoa (body.length : Int), 0x21 ≤ b ∧ b ≤ 0x7e ∧ b ≠ 13 ∧ b ≠ 10 := by
    intro b hb
    have h1 := hdec.2.1 b hb
    rw [UInt8.le_iff_toNat_le, UInt8.le_iff_toNat_le] at h1
    refine ⟨?_, ?_, ?_, ?_⟩
    · rw [UInt8.le_iff_toNat_le]; simp at h1 ⊢; omega
    · rw [UInt8.le_iff_toNat_le]; simp at h1 ⊢; omega
    · rintro rfl; simp at h1
    · rintro rfl; simp at h1
  have hnum : LineText (itoa (body.length : Int)) := ⟨hdec.1, fun b hb => (hdigit b hb).2.2,
    fun b hb => ⟨(hdigit b (List.mem_of_head? hb)).1, (hdigit b (List.mem_of_head? hb)).2.1⟩,
    fun b hb => ⟨(hdigit b (List.mem_of_getLast? hb)).1, (hdigit b (List.mem_of_getLast? hb)).2.1⟩⟩
  have hlen := isDecimal_length hdec hbody
  have gname : ∀ x ∈ g, HeaderName x.1 := by
    intro x hx
    rcases (hmem x).1 hx with rfl | ⟨hx, -⟩
    · exact hclname
    · exact hh.names x hx
  have gne : ∀ x ∈ g, x.2 ≠ [] := by
    intro x hx
    rcases (hmem x).1 hx with rfl | ⟨hx, -⟩
    · simp
    · exact hh.nonempty x hx
  have gval : ∀ x ∈ g, ∀ v ∈ x.2, LineText v ∧ x.1.length + v.length + 4 ≤ 4096 := by
    intro x hx v hv
    rcases (hmem x).1 hx with rfl | ⟨hx, -⟩
    · simp only [List.mem_singleton] at hv
      subst hv
      refine ⟨hnum, ?_⟩
      simp
      omega
    · exact ⟨hh.values x hx v hv, hh.short x hx v hv⟩
  have hacc : Acceptable 4096 (g.map sentField) := by
    refine ⟨?_, ?_, ?_, ?_⟩
    · intro f hf
      obtain ⟨x, hx, rfl⟩ := List.mem_map.1 hf
      exact sentField_fits (gname x hx) (gne x hx) fun v hv => (gval x hx v hv).1
    · intro l hl
      rw [fieldLines, List.mem_flatten] at hl
      obtain ⟨ll, h1, h2⟩ := hl
      obtain ⟨f, hf, rfl⟩ := List.mem_map.1 h1
      obtain ⟨⟨k, vs⟩, hx, rfl⟩ := List.mem_map.1 hf
      cases vs with
      | nil => exact absurd rfl (gne _ hx)
      | cons v vs =>
        rw [HField.lines, List.mem_cons, List.mem_map] at h2
        rcases h2 with rfl | ⟨c, hc, rfl⟩
        · have := (gval _ hx v (by simp)).2
          simp [sentField, lineEnd] at this ⊢
          omega
        · obtain ⟨w, hw, rfl⟩ := List.mem_map.1 hc
          have := (gval _ hx w (by simp only [List.mem_cons]; exact .inr (by simpa using hw))).2
          simp [Cont.line, lineEnd] at this ⊢
          omega
    · intro n hn v hv
      have hlow : ∀ n ∈ [text "from", text "to", text "contact", text "via"], n.map lowerAscii = n ∧ n ≠ b!"content-length" := by decide +kernel
      by_cases hx : ∃ vs, (n, vs) ∈ g
      · obtain ⟨vs, hx⟩ := hx
        rw [values_of_entry hgd gname hx] at hv
        simp only [List.head?_cons, Option.some.injEq] at hv
        subst hv
        rcases (hmem _).1 hx with h1 | ⟨h1, -⟩
        · exact absurd (Prod.mk.inj h1).1 (hlow n hn).2
        · refine hh.addresses _ h1 ?_
          simp only [List.mem_cons, List.not_mem_nil, or_false] at hn
          rcases hn with hn | hn | hn | hn
          · exact .inr (.inl hn)
          · exact .inr (.inr (.inl hn))
          · exact .inl hn
          · exact .inr (.inr (.inr hn))
      · exfalso
        rw [values_of_none] at hv
        · simp at hv
        · intro x hx' hc
          apply hx
          have h3 : x.1.map lowerAscii = x.1 := by
            rw [← toLower_ascii U (fun b hb => (HeaderName.not_crlf (gname x hx') hb).2.2.2.2)]
            exact toLower_name _ (gname x hx')
          rw [h3, (hlow n hn).1] at hc
          exact ⟨x.2, hc ▸ hx'⟩
    · refine ⟨itoa body.length, body.length, ?_, hdec, hbody⟩
      rw [hcl, values_of_entry hgd gname ((hmem _).2 (.inl rfl))]
      simp [joined]
  have htab : ∀ e ∈ reasonPhrases, (∀ b ∈ statusText e.1, b ≠ 13 ∧ b ≠ 10) ∧ (statusText e.1).length ≤ 100 ∧ 0 ≤ e.1 ∧ e.1 < 1000 ∧
      (itoa e.1).length = 3 := by decide +kernel
  obtain ⟨t1, t2, t3, t4, t5⟩ := htab e he
  have hcode := itoa_nat e.1.toNat
  rw [Int.toNat_of_nonneg t3] at hcode
  have hfill : makeResponse e.1 (some h) body = { Sip.new with isResponse := true, version := 2, responseCode := e.1, headers := some h, payload := body } := by
    rw [makeResponse, Sip.fill]
    have h1 : ((some h).getD ([] : Hdr)).length > 0 := List.length_pos_iff.2 hne
    have h2 : body.length > 0 := List.length_pos_iff.2 hb
    rw [if_pos h1, if_pos h2]
    rfl
  have hw : ((makeResponse e.1 (some h) body).bytes U order).1 = .ok (lines ((text "SIP/2.0" ++ 0x20 :: (itoa e.1 ++ 0x20 :: statusText e.1) ++ lineEnd true) ::
      fieldLines (g.map sentField)) ++ lineEnd true ++ 10 :: body) := by
    rw [hfill, Sip.bytes, firstLineBytes]
    simp only [if_true, hg, if_pos (List.length_pos_iff.2 hb)]
    rw [hdrBytes_sent g gne, versionString, if_neg (by decide), statusString, show text "SIP/2.0" = b!"SIP/2.0" from by decide +kernel]
    simp [lines, joinLines, lineEnd]
  obtain ⟨m, r', g1, -, -, -, -, g6⟩ := C101_peer_response U 4096 (by decide) [_] (2, "SIP/2.0") (by decide) (itoa e.1) e.1.toNat hcode
    (by omega) (statusText e.1) t1 true true (g.map sentField) hacc body (by omega) (by rw [List.flatten_singleton])
  refine ⟨_, m, hw, ?_, ?_⟩
  · rw [parseBytes, Rd.ofBytes, g1]
  · intro k vs hk hkn
    have hx : (k, vs) ∈ g := (hmem _).2 (.inr ⟨hk, by rw [← hcl]; exact hkn⟩)
    rw [g6.all k (fun b hb => (HeaderName.not_crlf (hh.names _ hk) hb).2.2.2.2), values_of_entry hgd gname hx]

/-- Two Via values and two allowed methods. -/
def someMany : Hdr := [(text "via", [text "SIP/2.0/UDP a.b:5060;branch=z9hG4bK776", text "SIP/2.0/UDP c.d"]), (text "allow", [text "BYE", text "ACK"]),
  (text "call-id", [text "x@y"])]

theorem someMany_ok : ManyValues someMany := by
  have h2 : ∀ e ∈ someMany, (e.1 ≠ [] ∧ ∀ b ∈ e.1, 0x21 ≤ b ∧ b ≤ 0x7e ∧ b ≠ 0x3a ∧ ¬ (0x41 ≤ b ∧ b ≤ 0x5a)) ∧ e.2 ≠ [] ∧
    valuesPresentB (joined e.2) = true := by decide +kernel
  have h3 : ∀ e ∈ someMany, ∀ v ∈ e.2, e.1.length + v.length + 4 ≤ 4096 ∧ v ≠ [] ∧ (∀ b ∈ v, b ≠ 13 ∧ b ≠ 10) ∧
    (∀ b ∈ v.head?, 0x21 ≤ b ∧ b ≤ 0x7e) ∧ (∀ b ∈ v.getLast?, 0x21 ≤ b ∧ b ≤ 0x7e) := by decide +kernel
  exact ⟨by decide +kernel, fun e he => ⟨(h2 e he).1.1, (h2 e he).1.2⟩, fun e he => (h2 e he).2.1,
    fun e he v hv => ⟨(h3 e he v hv).2.1, (h3 e he v hv).2.2.1, (h3 e he v hv).2.2.2.1, (h3 e he v hv).2.2.2.2⟩,
    fun e he v hv => (h3 e he v hv).1, fun e he _ => valuesPresent_of (h2 e he).2.2⟩

/-- C103 (partial): headers with a single value come back with it, whatever the number of values of the others. -/
theorem C103_single_partial (U : Unicode) (order : Hdr → Hdr) (ho : ∀ x, (order x).Perm x) (e : Int × String)
    (he : e ∈ reasonPhrases) (h : Hdr) (hne : h ≠ []) (hh : ManyValues h) (body : Bytes) (hb : body ≠ []) (hbody : body.length < 2 ^ 63) :
    ∃ w m, ((makeResponse e.1 (some h) body).bytes U order).1 = .ok w ∧ parseBytes U Sip.new w = (.ok (), m) ∧
      ∀ k v, (k, [v]) ∈ h → k ≠ text "content-length" → getHeader U m.hdr k = [v] := by
  obtain ⟨w, m, h1, h2, h3⟩ := sent_values U order ho e he h hne hh body hb hbody
  refine ⟨w, m, h1, h2, fun k v hk hkn => ?_⟩
  rw [h3 k [v] hk hkn]
  simp [joined]

/-- C103 fails for every header with several values: they come back as a single one, joined by spaces. -/
theorem C103_values_joined_refuted (U : Unicode) (order : Hdr → Hdr) (ho : ∀ x, (order x).Perm x) (e : Int × String)
    (he : e ∈ reasonPhrases) (h : Hdr) (hne : h ≠ []) (hh : ManyValues h) (body : Bytes) (hb : body ≠ []) (hbody : body.length < 2 ^ 63) :
    ∃ w m, ((makeResponse e.1 (some h) body).bytes U order).1 = .ok w ∧ parseBytes U Sip.new w = (.ok (), m) ∧
      ∀ k vs, (k, vs) ∈ h → k ≠ text "content-length" → getHeader U m.hdr k = [joined vs] ∧ (2 ≤ vs.length → getHeader U m.hdr k ≠ vs) := by
  obtain ⟨w, m, h1, h2, h3⟩ := sent_values U order ho e he h hne hh body hb hbody
  refine ⟨w, m, h1, h2, fun k vs hk hkn => ⟨h3 k vs hk hkn, fun h4 h5 => ?_⟩⟩
  rw [h3 k vs hk hkn] at h5
  rw [← h5] at h4
  simp at h4

example (U : Unicode) : ∃ w m, ((makeResponse 200 (some someMany) (text "hi")).bytes U List.reverse).1 = .ok w ∧
    parseBytes U Sip.new w = (.ok (), m) ∧ ∀ k vs, (k, vs) ∈ someMany → k ≠ text "content-length" →
      getHeader U m.hdr k = [joined vs] ∧ (2 ≤ vs.length → getHeader U m.hdr k ≠ vs) :=
  C103_values_joined_refuted U List.reverse (fun _ => List.reverse_perm _) (200, "OK") (by decide) someMany (by simp [someMany])
    someMany_ok (text "hi") (by decide +kernel) (by decide +kernel)
example (U : Unicode) : ∃ w m, ((makeResponse 200 (some someMany) (text "hi")).bytes U List.reverse).1 = .ok w ∧
    parseBytes U Sip.new w = (.ok (), m) ∧ ∀ k v, (k, [v]) ∈ someMany → k ≠ text "content-length" → getHeader U m.hdr k = [v] :=
  C103_single_partial U List.reverse (fun _ => List.reverse_perm _) (200, "OK") (by decide) someMany (by simp [someMany])
    someMany_ok (text "hi") (by decide +kernel) (by decide +kernel)
example : joined [text "BYE", text "ACK"] = text "BYE ACK" := by decide +kernel

/-- C103 fails for every header with no value left: its name is glued to the next header. -/
theorem C103_empty_list_refuted (k : Bytes) (h : Hdr) : hdrBytes ((k, []) :: h) = k ++ 0x3a :: hdrBytes h := by
  simp [hdrBytes, headerItem]

/-! ## C104 -/

/-- C104: an address turned into a request URI and written is read back with the parts of the address. -/
theorem C104_to_request (s : User) (o : Args) (ho : o.Perm s.args)
    (ht : s.uriType = text "sip" ∨ s.uriType = text "sips" ∨ s.uriType = text "tel")
    (hu : ∀ b ∈ s.user, b ≠ 0x40 ∧ b ≠ 0x3b) (hh : ∀ b ∈ s.host, b ≠ 0x3a ∧ b ≠ 0x3b) (hp : ∀ b ∈ s.port, b ≠ 0x3b)
    (ha : ArgMap s.args) :
    ∃ a, newSIPRequest { s.toRequest with args := o }.bytes = .ok ⟨s.uriType, s.user, s.host, s.port, a⟩ ∧ a.Perm s.args ∧
      s.toRequest.args.Perm s.args := by
  have ho' : o.Perm s.toRequest.args := ho
  obtain ⟨a, h1, h2⟩ := C72_request_round_trip s.toRequest o ho' ht hu hh hp ha
  exact ⟨a, h1, h2, List.Perm.refl _⟩

example : ∃ a, newSIPRequest { someUser.toRequest with args := someArgs.reverse }.bytes =
    .ok ⟨someUser.uriType, someUser.user, someUser.host, someUser.port, a⟩ ∧ a.Perm someArgs ∧ someUser.toRequest.args.Perm someArgs :=
  C104_to_request someUser someArgs.reverse (List.reverse_perm _) (by decide +kernel) (by decide +kernel) (by decide +kernel)
    (by decide +kernel) someArgs_ok

/-- C104: a request URI turned into an address and written is read back with the parts of the URI and no display name. -/
theorem C104_to_user (U : Unicode) (s : Request) (o : Args) (ho : o.Perm s.args)
    (ht : s.uriType = text "sip" ∨ s.uriType = text "sips" ∨ s.uriType = text "tel")
    (hu : ∀ b ∈ s.user, b ≠ 0x20 ∧ b ≠ 0x3b ∧ b ≠ 0x3e ∧ b ≠ 0x40) (hh : ∀ b ∈ s.host, b ≠ 0x20 ∧ b ≠ 0x3a ∧ b ≠ 0x3b ∧ b ≠ 0x3e)
    (hp : ∀ b ∈ s.port, b ≠ 0x20 ∧ b ≠ 0x3b ∧ b ≠ 0x3e) (ha : ArgMap s.args) :
    ∃ a, newSIPUser ({ s.toUser with args := o }.bytes U) = .ok ⟨s.uriType, [], s.user, s.host, s.port, a⟩ ∧ a.Perm s.args ∧
      s.toUser.args.Perm s.args := by
  obtain ⟨a, h1, h2⟩ := C74_user_round_trip U s.toUser o ho ht (by simp [Request.toUser]) hu hh hp ha
  exact ⟨a, h1, h2, List.Perm.refl _⟩

example (U : Unicode) : ∃ a, newSIPUser ({ someRequest.toUser with args := someArgs.reverse }.bytes U) =
    .ok ⟨someRequest.uriType, [], someRequest.user, someRequest.host, someRequest.port, a⟩ ∧ a.Perm someArgs ∧
    someRequest.toUser.args.Perm someArgs :=
  C104_to_user U someRequest someArgs.reverse (List.reverse_perm _) (by decide +kernel) (by decide +kernel) (by decide +kernel)
    (by decide +kernel) someArgs_ok

/-! ## C105 -/

/-- C105 fails for every object that has parsed a response: after a request is parsed into it, it still claims to be a
response, every header lists the values of both messages, and the first value is that of the earlier message. -/
theorem C105_reuse_refuted (U : Unicode) (size : Nat) (hsize : 2 ≤ size) (chunks chunks' : List Bytes)
    (d : Bytes) (code : Nat) (hd : IsDecimal d code) (hcode : code < 2 ^ 63) (phrase : Bytes) (hph : ∀ b ∈ phrase, b ≠ 13 ∧ b ≠ 10)
    (fs : List HField) (ha : Acceptable size fs) (body : Bytes) (hshort : d.length + phrase.length + 10 < size)
    (hall : chunks.flatten = lines ((text "SIP/2.0" ++ 0x20 :: (d ++ 0x20 :: phrase) ++ lineEnd true) :: fieldLines fs) ++ lineEnd true ++ 10 :: body)
    (e : UInt16 × String) (he : e ∈ methods) (q : Request) (w1 : Bytes) (hq : newSIPRequest w1 = .ok q)
    (hw1 : ∀ b ∈ w1, b ≠ 0x20 ∧ b ≠ 13 ∧ b ≠ 10) (fs' : List HField) (ha' : Acceptable size fs') (body' : Bytes)
    (hshort' : w1.length + 20 < size)
    (hall' : chunks'.flatten = lines ((text e.2 ++ 0x20 :: (w1 ++ 0x20 :: text "SIP/2.0") ++ lineEnd true) :: fieldLines fs') ++ lineEnd true ++ 10 :: body') :
    ∃ m m' r r', parse U Sip.new ⟨[], chunks, size, .eof⟩ = (.ok (), m, r) ∧ parse U m ⟨[], chunks', size, .eof⟩ = (.ok (), m', r') ∧
      m'.isResponse = true ∧ m'.responseCode = code ∧
      ∀ n, (∀ b ∈ n, b < 0x80) → getHeader U m'.hdr n = fieldValues fs n ++ fieldValues fs' n ∧
        getFirstHeader U m'.hdr n = (fieldValues fs n ++ fieldValues fs' n).head?.getD [] := by
  have htab : ∀ e ∈ methods, (∀ b ∈ text e.2, b ≠ 0x20 ∧ b ≠ 13 ∧ b ≠ 10 ∧ b < 0x80) ∧ text e.2 ≠ [] ∧ (text e.2).length ≤ 9 ∧
      hasPrefix (text e.2) b!"SIP" = false := by decide +kernel
  obtain ⟨t1, t2, t3, t4⟩ := htab e he
  have e2 : text "SIP/2.0" = b!"SIP/2.0" := by decide +kernel
  have c2 : ∀ b ∈ b!"SIP/2.0", b ≠ 13 ∧ b ≠ 10 := by decide
  have hdig : ∀ b ∈ d, b ≠ 0x20 ∧ b ≠ 13 ∧ b ≠ 10 := by
    intro b hb
    have h1 := (hd.2.1 b hb).1
    rw [UInt8.le_iff_toNat_le] at h1
    refine ⟨?_, ?_, ?_⟩ <;> (rintro rfl; simp at h1)
  rw [e2] at hall hall'
  obtain ⟨m, r, g1, -, ⟨h, g3, g4⟩, h1, l, c, f, t, v, p, cq, x, g5⟩ := receive U size hsize chunks _ _ true true fs ha body hall
    (parseFirstLine_response U Sip.new b!"SIP/2.0" d phrase code 2 (by decide) (fun h => (hdig _ h).1 rfl)
      (by decide) (version2 U) (atoi_decimal hd hcode)) rfl
    (by
      intro b hb
      rcases List.mem_append.1 hb with hb | hb
      · exact c2 b hb
      rw [List.mem_cons, List.mem_append, List.mem_cons] at hb
      rcases hb with rfl | hb | rfl | hb
      · decide
      · exact (hdig b hb).2
      · decide
      · exact hph b hb) (by simp) (by simp; omega)
  have key : ∀ n : Bytes, n.map lowerAscii = n → under' (pairs fs ++ pairs fs') n = fieldValues fs n ++ fieldValues fs' n := by
    intro n hn
    rw [under_append, ← fieldValues_eq, ← fieldValues_eq, hn]
  have hhead : ∀ a b : List Bytes, (a ++ b).head? = a.head? ∨ (a = [] ∧ (a ++ b).head? = b.head?) := by
    intro a b
    cases a with
    | nil => right; simp
    | cons x a => left; simp
  obtain ⟨h', last, c', f', t', v', k', r', m1, -, -, -, -, m6⟩ := receiveInto U size hsize chunks' _ m
    { m with method := e.1, request := some q, version := 2 } h (pairs fs) g4 true true fs' ha'.fits ha'.short
    (by
      intro n hn
      have hlow : ∀ n ∈ [text "from", text "to", text "contact", text "via"], n.map lowerAscii = n := by decide +kernel
      rw [key n (hlow n hn)]
      rcases hhead (fieldValues fs n) (fieldValues fs' n) with hv | ⟨-, hv⟩ <;> rw [hv]
      · cases hv : (fieldValues fs n).head? with
        | none => exact good_nil
        | some v => exact ha.addresses n hn v hv
      · cases hv : (fieldValues fs' n).head? with
        | none => exact good_nil
        | some v => exact ha'.addresses n hn v hv)
    (by
      rw [key _ (by decide +kernel)]
      rcases hhead (fieldValues fs (text "content-length")) (fieldValues fs' (text "content-length")) with hv | ⟨-, hv⟩ <;> rw [hv]
      · exact ha.length
      · exact ha'.length) body' hall'
    (parseFirstLine_request U m (text e.2) w1 b!"SIP/2.0" e.1 2 q (fun h => (t1 _ h).1 rfl) (fun h => (hw1 _ h).1 rfl) t4
      ((C71_methods U e he).2 _ (fun b hb => (t1 b hb).2.2.2) rfl) hq (version2 U)) g3
    (by
      intro b hb
      rcases List.mem_append.1 hb with hb | hb
      · exact (t1 b hb).2.imp_right And.left
      rw [List.mem_cons, List.mem_append, List.mem_cons] at hb
      rcases hb with rfl | hb | rfl | hb
      · decide
      · exact (hw1 b hb).2
      · decide
      · exact c2 b hb) (by simp) (by simp; omega)
  refine ⟨m, _, r, r', g1, m6, ?_, ?_, ?_⟩
  · show m.isResponse = true
    rw [g5]
  · show m.responseCode = code
    rw [g5]
  · intro n hn
    have := m1.getHeader U n
    rw [toLower_ascii U hn, under_append, fieldValues_eq, fieldValues_eq] at this
    exact this

example (U : Unicode) : ∃ m m' r r', parse U Sip.new ⟨[], someWire (text "SIP/2.0 180 Please hold the line"), 4096, .eof⟩ = (.ok (), m, r) ∧
    parse U m ⟨[], someWire (text "BYE sip:a@b SIP/2.0"), 4096, .eof⟩ = (.ok (), m', r') ∧ m'.isResponse = true ∧ m'.responseCode = 180 ∧
    ∀ n, (∀ b ∈ n, b < 0x80) → getHeader U m'.hdr n = fieldValues someFields n ++ fieldValues someFields n ∧
      getFirstHeader U m'.hdr n = (fieldValues someFields n ++ fieldValues someFields n).head?.getD [] :=
  C105_reuse_refuted U 4096 (by decide) _ _ (text "180") 180 (by simp only [IsDecimal]; decide +kernel) (by decide) (text "Please hold the line")
    (by decide +kernel) someFields someFields_ok (text "abcd") (by decide +kernel) (by decide +kernel) (3, "BYE") (by decide)
    ⟨text "sip", text "a", text "b", [], []⟩ (text "sip:a@b") (by decide +kernel) (by decide +kernel) someFields someFields_ok (text "abcd")
    (by decide +kernel) (by decide +kernel)

/-! ## C106 -/

/-- C106 fails for every message with a line that does not fit the reader: it is not accepted. -/
theorem C106_long_line_refuted (U : Unicode) (s : Sip) (size : Nat) (hsize : 0 < size) (chunks : List Bytes) (ls : List Bytes) (long rest : Bytes)
    (hall : chunks.flatten = lines ls ++ (long ++ rest)) (hls : ∀ l ∈ ls, HeadLine size l) (hl : (10 : UInt8) ∉ long)
    (hlen : long.length = size) : (parse U s ⟨[], chunks, size, .eof⟩).1 ≠ .ok () := by
  have hr : (⟨[], chunks, size, .eof⟩ : Rd).Ok := ⟨hsize, by simp⟩
  have hall' : (⟨[], chunks, size, .eof⟩ : Rd).all = joinLines ls ++ (long ++ rest) := by
    rw [Rd.all, List.nil_append]; exact hall
  have hls' : ∀ l ∈ ls, (10 : UInt8) ∉ l ∧ trim crlf l ≠ [] ∧ l.length < size := by
    intro l hl
    refine ⟨(hls l hl).noLf, fun h => ?_, (hls l hl).short⟩
    obtain ⟨b, hb, hne⟩ := (hls l hl).notBlank
    have := (trim_eq_nil_iff crlf l).1 h b hb
    simp only [crlf, Bool.or_eq_true, beq_iff_eq] at this
    rcases this with h1 | h1
    · exact hne h1
    · exact (hls l hl).noLf (h1 ▸ hb)
  have hj := joinLines_length ls
  have hlen' := congrArg List.length hall'
  rw [List.length_append] at hlen'
  generalize hR : (⟨[], chunks, size, .eof⟩ : Rd) = r at *
  have hcap : r.cap = size := by rw [← hR]
  have hfin : r.final = .eof := by rw [← hR]
  obtain ⟨r1, g1, g2, g3, g4, g5, g6, g7⟩ := lineLoop_lines U (long ++ rest) ls (r.all.length + 2 - ls.length) true [] 0 s r hr hall'
    (by rw [hcap]; exact hls')
  rw [parse, show r.all.length + 2 = ls.length + (r.all.length + 2 - ls.length) by omega]
  rcases hrun : runLines U true (ls.map (trim crlf)) s with ⟨_ | e | _ | _, s1⟩
  · obtain ⟨k1, k2⟩ := g4 _ hrun
    rw [k2]
    obtain ⟨l, e, r', m1, m2, m3, m4, m5, m6⟩ := readSlice_cases 10 r1 g1
    have : e = some .other := by
      rw [k1] at m2
      rcases m6 with ⟨x, rfl, hx, rfl, m8⟩ | ⟨m7, m8, rfl⟩ | ⟨m7, m8, rfl, m9⟩
      · exfalso
        have : (10 : UInt8) ∈ long := by
          have h3 : x ++ [10] = long.take (x ++ [10]).length := by
            have := congrArg (List.take (x ++ [10]).length) m2
            rw [List.take_append_of_le_length (by omega)] at this
            rw [this, List.take_left]
          have : (10 : UInt8) ∈ x ++ [10] := by simp
          rw [h3] at this
          exact List.mem_of_mem_take this
        exact hl this
      · rfl
      · exfalso
        rw [m9, List.append_nil] at m2
        have := congrArg List.length m2
        simp at this
        omega
    subst this
    rw [show r.all.length + 2 - ls.length = (r.all.length + 1 - ls.length) + 1 by omega, lineLoop_step U _ _ _ _ _ r1 r' l _ m1,
      if_pos (by simp)]
    simp
  · rw [g5 _ _ hrun]; simp
  · rw [g6 _ hrun]; simp
  · rw [g7 _ hrun]; simp

example (U : Unicode) (v : Bytes) (hv : v.length = 4096) (h10 : (10 : UInt8) ∉ v) :
    (parse U Sip.new ⟨[], [text "BYE sip:a@b SIP/2.0\r\ncontent-length: 4\r\n" ++ (v ++ text "\r\n\r\n")], 4096, .eof⟩).1 ≠ .ok () :=
  C106_long_line_refuted U Sip.new 4096 (by decide) _ [text "BYE sip:a@b SIP/2.0\r", text "content-length: 4\r"] v (text "\r\n\r\n")
    (by
      rw [List.flatten_cons, List.flatten_nil, List.append_nil]
      congr 1
      decide +kernel) someMsg_lines h10 hv

end Verif.Props
