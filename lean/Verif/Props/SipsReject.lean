import Verif.Props.SipsAccept
import Verif.Props.SipsLength
/-!
# Properties of package `sips`: objects for which `Parse` has returned an error (C151)
-/
namespace Verif.Props
open Verif.Sips Verif.Str Verif.Spec.Sips

/-! ## C151 -/

theorem parseLine_frame (U : Unicode) (first : Bool) (l : Bytes) (s : Sip) :
    (parseLine U first l s).2.contents = s.contents ∧ (parseLine U first l s).2.payload = s.payload := by
  cases first with
  | true =>
    simp only [parseLine, if_true, parseFirstLine]
    rcases splitN 0x20 2 l with _ | ⟨w0, _ | ⟨w1, _ | ⟨w2, _ | ⟨w3, ws⟩⟩⟩⟩ <;> simp only [GoM.fail_apply, and_self]
    split
    · simp only [GoM.bind_apply, GoM.modify_apply, GoM.lift_apply]
      rcases getSIPVersion U w0 with v | e | _ | _ <;> simp only [GoM.bind_apply, GoM.modify_apply, GoM.fail_apply, and_self]
      rcases atoi w1 with i | e | _ | _ <;> simp
    · rcases getSIPMethod U w0 with v | e | _ | _ <;> simp only [GoM.bind_apply, GoM.modify_apply, GoM.fail_apply, GoM.lift_apply, and_self]
      rcases newSIPRequest w1 with i | e | _ | _ <;> simp only [and_self]
      rcases getSIPVersion U w2 with v | e | _ | _ <;> simp only [GoM.bind_apply, GoM.modify_apply, GoM.fail_apply, and_self]
  | false =>
    simp only [parseLine, Bool.false_eq_true, if_false, parseHeader]
    rcases l with _ | ⟨b, l⟩
    · exact ⟨rfl, rfl⟩
    simp only
    have hput : ∀ k v s, (putHeader k v s).2.contents = s.contents ∧ (putHeader k v s).2.payload = s.payload := by
      intro k v s
      rw [putHeader]
      split <;> exact ⟨rfl, rfl⟩
    split
    · simp only [GoM.bind_apply, GoM.get_apply, GoM.lift_apply]
      rcases goIndex (vals s.hdr s.last) _ with o | e | _ | _ <;> simp only [and_self]
      rcases goSet (vals s.hdr s.last) _ _ with o | e | _ | _ <;> simp only [and_self]
      exact hput _ _ _
    split
    · simp only [GoM.bind_apply, GoM.get_apply, GoM.lift_apply]
      rcases goSlice (b :: l) 0 _ with o | e | _ | _ <;> simp only [and_self]
      rcases goSlice (b :: l) _ _ with o | e | _ | _ <;> simp only [and_self]
      have h := fun k v => hput k v s
      generalize hk : putHeader _ _ s = z
      have := hk ▸ h _ _
      rcases z with ⟨_ | e | _ | _, z⟩ <;> simp only [GoM.modify_apply] <;> exact this
    · exact ⟨rfl, rfl⟩

theorem lineLoop_frame (U : Unicode) : ∀ (fuel : Nat) (first : Bool) (buf : Bytes) (off : Nat) (s : Sip) (r : Rd),
    (lineLoop U fuel first buf off s r).2.1.contents = s.contents ∧ (lineLoop U fuel first buf off s r).2.1.payload = s.payload := by
  intro fuel
  induction fuel with
  | zero => intro first buf off s r; rw [lineLoop]; exact ⟨rfl, rfl⟩
  | succ fuel ih =>
    intro first buf off s r
    rw [lineLoop]
    rcases r.readSlice 10 with ⟨l, e, r1⟩ | e | _ | _
    · simp only
      split
      · exact ⟨rfl, rfl⟩
      split
      · exact ⟨rfl, rfl⟩
      split
      · exact ⟨rfl, rfl⟩
      have h := parseLine_frame U first (trim (fun b => b == 13 || b == 10) l) s
      rcases hp : parseLine U first (trim (fun b => b == 13 || b == 10) l) s with ⟨_ | e | _ | _, s2⟩ <;> rw [hp] at h
      · simp only
        obtain ⟨h1, h2⟩ := ih false (buf ++ l) (off + l.length) s2 r1
        exact ⟨h1.trans h.1, h2.trans h.2⟩
      all_goals exact h
    all_goals exact ⟨rfl, rfl⟩

/-- C151 (partial): whatever the reader delivers and whatever the object has held before, a message that is not accepted changes neither
the text nor the body that the object holds.  (Missing: its first line and its header fields are kept, see
`C151_headers_refuted`, `C151_request_refuted` and `C151_response_refuted`.) -/
theorem C151_body_partial (U : Unicode) (s s' : Sip) (r r' : Rd) (x : Res Unit) (h : parse U s r = (x, s', r')) (hx : x ≠ .ok ()) :
    s'.contents = s.contents ∧ s'.payload = s.payload := by
  have hl := lineLoop_frame U (r.all.length + 2) true [] 0 s r
  rw [parse] at h
  rcases hk : lineLoop U (r.all.length + 2) true [] 0 s r with ⟨⟨b, n⟩ | e | _ | _, s1, r1⟩ <;> rw [hk] at h hl
  · simp only [finish] at h
    obtain ⟨c, q, f, t, v, hf⟩ := fillHeader_frame U s1
    rcases hi : fillHeader U s1 with ⟨_ | e | _ | _, s2⟩ <;> rw [hi] at h hf <;> simp only at h hf
    · rcases hj : fillBody U s2.hdr r1 ((b.length : Int) - n) with ⟨body | e | _ | _, r2⟩ <;> rw [hj] at h <;> simp only at h
      · split at h
        · simp only [Prod.mk.injEq] at h
          exact absurd h.1.symm hx
        · simp only [Prod.mk.injEq] at h
          rw [← h.2.1, hf]; exact hl
      all_goals
        simp only [Prod.mk.injEq] at h
        rw [← h.2.1, hf]; exact hl
    all_goals
      simp only [Prod.mk.injEq] at h
      rw [← h.2.1, hf]; exact hl
  all_goals
    simp only [Prod.mk.injEq] at h
    rw [← h.2.1]; exact hl

/-- A first line that is not accepted. -/
theorem parse_first_err (U : Unicode) (s s1 : Sip) (r : Rd) (hr : r.Ok) (l rest : Bytes) (hl : ∀ b ∈ l, b ≠ 13 ∧ b ≠ 10) (hne : l ≠ [])
    (hlen : l.length + 1 < r.cap) (hw : r.all = l ++ 13 :: 10 :: rest) (e : Err) (he : parseFirstLine U l s = (.err e, s1)) :
    ∃ r1, parse U s r = (.err e, s1, r1) := by
  have ht : trim crlf (l ++ [13]) = l := trim_of_chars true hl
  obtain ⟨r1, g1, g2, g3, g4, g5, -⟩ := lineLoop_lines U rest [l ++ [13]] (r.all.length + 1) true [] 0 s r hr (by simp [joinLines, hw])
    (by
      intro m hm
      obtain rfl : m = l ++ [13] := by simpa using hm
      refine ⟨fun h => ?_, by rw [ht]; exact hne, by simpa using hlen⟩
      rcases List.mem_append.1 h with h | h
      · exact (hl _ h).2 rfl
      · simp at h)
  have := g5 e s1 (by simp [runLines, parseLine, ht, he])
  refine ⟨r1, ?_⟩
  rw [parse, show r.all.length + 2 = [l ++ [13]].length + (r.all.length + 1) by simp; omega, this]

/-- C151 (partial): a text whose first line is not three words is rejected and the object is exactly as before. -/
theorem C151_words_partial (U : Unicode) (s : Sip) (r : Rd) (hr : r.Ok) (l rest : Bytes) (hl : ∀ b ∈ l, b ≠ 13 ∧ b ≠ 10) (hne : l ≠ [])
    (hlen : l.length + 1 < r.cap) (hw : r.all = l ++ 13 :: 10 :: rest) (hno : ∀ w0 w1 w2, l ≠ w0 ++ 0x20 :: (w1 ++ 0x20 :: w2)) :
    ∃ e r', parse U s r = (.err e, s, r') := by
  have : parseFirstLine U l s = (.err .other, s) := by
    rw [parseFirstLine]
    rcases h : splitN 0x20 2 l with _ | ⟨w0, _ | ⟨w1, _ | ⟨w2, _ | ⟨w3, ws⟩⟩⟩⟩ <;> try rfl
    exact absurd (splitN_three h) (hno w0 w1 w2)
  obtain ⟨r1, h⟩ := parse_first_err U s s r hr l rest hl hne hlen hw _ this
  exact ⟨_, r1, h⟩

/-- C151 (partial): a request with an unknown method is rejected; the object does not take it for one with a known method and shows no
header, and the next message that is parsed into it is recovered as in a new object. -/
theorem C151_method_partial (U : Unicode) (size : Nat) (hsize : 2 ≤ size) (r : Rd) (hr : r.Ok) (hcap : r.cap = size) (w0 w1 w2 rest : Bytes)
    (h0 : (0x20 : UInt8) ∉ w0) (h1 : (0x20 : UInt8) ∉ w1) (hl : ∀ b ∈ w0 ++ w1 ++ w2, b ≠ 13 ∧ b ≠ 10) (ha : Ascii w0)
    (hm : ∀ e ∈ methods, ¬ SameText w0 (text e.2)) (hsip : w0.take 3 ≠ text "SIP") (hlen : w0.length + w1.length + w2.length + 3 < size)
    (hw : r.all = w0 ++ 0x20 :: (w1 ++ 0x20 :: w2) ++ 13 :: 10 :: rest) :
    ∃ e s r', parse U Sip.new r = (.err e, s, r') ∧ (∀ e ∈ methods, s.method ≠ e.1) ∧ s.isResponse = false ∧ (∀ n, getHeader U s.hdr n = []) ∧
      ∀ (m : Message) (t : Rd), m.start.Fits size → Acceptable size m.fields → Declares m.fields m.body.length → t.Ok → t.cap = size → t.all = m.wire →
        ∃ s' t', parse U s t = (.ok (), s', t') ∧ StartRead s' m.start ∧ Received U s' m.fields := by
  subst hcap
  obtain ⟨e, he⟩ := C71_methods_other U w0 ha hm
  have hp : hasPrefix w0 b!"SIP" = false := by
    rw [Bool.eq_false_iff]
    intro h
    apply hsip
    rw [hasPrefix, beq_iff_eq] at h
    rw [show text "SIP" = b!"SIP" by decide +kernel]
    exact h
  have hfirst : parseFirstLine U (w0 ++ 0x20 :: (w1 ++ 0x20 :: w2)) Sip.new = (.err .other, { Sip.new with method := 0 }) := by
    rw [parseFirstLine, splitN_two h0 h1]
    simp only [hp, he, GoM.bind_apply, GoM.modify_apply, GoM.fail_apply, Bool.false_eq_true, if_false]
  obtain ⟨r1, h⟩ := parse_first_err U Sip.new _ r hr (w0 ++ 0x20 :: (w1 ++ 0x20 :: w2)) rest
    (by
      intro b hb
      simp only [List.mem_append, List.mem_cons] at hb hl
      rcases hb with hb | rfl | hb | rfl | hb
      · exact hl b (.inl (.inl hb))
      · decide
      · exact hl b (.inl (.inr hb))
      · decide
      · exact hl b (.inr hb)) (by simp) (by simp; omega) hw _ hfirst
  refine ⟨_, _, r1, h, by decide, rfl, fun n => rfl, ?_⟩
  intro m t hst ha hdecl ht hcap hall
  obtain ⟨d, hd, hdec⟩ := hdecl
  have hn : m.body.length < 2 ^ 63 := by
    obtain ⟨d', n', h1, h2, h3⟩ := ha.length
    rw [hd, Option.some.injEq] at h1
    rw [← hdec.2.2.2, h1, h2.2.2.2]; exact h3
  obtain ⟨s', t', k, h', i1, i2, i3, -⟩ := receiveMessageInto U r.cap hsize t ht hcap { Sip.new with method := 0 } [] [] rfl shows_nil m hst ha.fits ha.short
    (by simpa using ha.addresses) d m.body.length (by simpa using hd) (atoi_decimal hdec hn) m.body (.inr (by omega)) hall
  exact ⟨s', t', i1, i2 (.inl rfl), by simpa using i3⟩

/-- C151, refuted: a message without content length is rejected, but its first line and all its header fields stay in the object, and the
next message that is parsed into it shows them all in front of its own. -/
theorem C151_headers_refuted (U : Unicode) (size : Nat) (hsize : 2 ≤ size) (m1 m2 : Message) (h1 : m1.start.Fits size) (h2 : m2.start.Fits size)
    (a1 : ∀ f ∈ m1.fields, f.Fits) (b1 : ∀ l ∈ fieldLines m1.fields, l.length < size)
    (c1 : ∀ n ∈ [text "from", text "to", text "contact", text "via"], ∀ v, (fieldValues m1.fields n).head? = some v → ValuesPresent v)
    (d1 : fieldValues m1.fields (text "content-length") = []) (a2 : Acceptable size m2.fields) (dd : Declares m2.fields m2.body.length)
    (r t : Rd) (hr : r.Ok) (ht : t.Ok) (hrc : r.cap = size) (htc : t.cap = size) (hw : r.all = m1.wire) (hw' : t.all = m2.wire) :
    ∃ e s r' s' t', parse U Sip.new r = (.err e, s, r') ∧ StartRead s m1.start ∧ Received U s m1.fields ∧
      parse U s t = (.ok (), s', t') ∧ Received U s' (m1.fields ++ m2.fields) := by
  subst hrc
  obtain ⟨s1, s2, s3, s0, s4, s5, s6⟩ := start_line U r.cap m1.start h1 Sip.new
  obtain ⟨h', last, g1, g2⟩ := runLines_fields U m1.fields [] s0 [] s5 shows_nil a1
  have hls := field_lines r.cap m1.start.line true m1.fields a1 b1 s1 s2 s3
  have t0 := trim_of_chars true s1
  have hrun : runLines U true (((m1.start.line ++ lineEnd true) :: fieldLines m1.fields).map (trim crlf)) Sip.new =
      (.ok (), { s0 with headers := some h', last := last }) := by
    have hp : parseLine U true m1.start.line Sip.new = (.ok (), s0) := s4
    rw [List.map_cons, t0, runLines, hp]
    exact g1
  obtain ⟨r1, p1, -⟩ := parse_wire U Sip.new _ m1.body r hr hsize hls (by rw [hw, Message.wire, Message.head, List.append_assoc]; rfl)
  obtain ⟨q1, q2, q3, q4⟩ := p1 _ hrun
  have key : ∀ n, n.map lowerAscii = n → under' ([] ++ pairs m1.fields) n = fieldValues m1.fields n := by
    intro n hn
    rw [List.nil_append, ← fieldValues_eq, hn]
  have good : ∀ n ∈ [text "from", text "to", text "contact", text "via"], Good ((fieldValues m1.fields n).head?.getD []) := by
    intro n hn
    cases hv : (fieldValues m1.fields n).head? with
    | none => exact good_nil
    | some v => exact c1 n hn v hv
  have hget : ∀ n, (∀ b ∈ n, b < 0x80) →
      getHeader U h' n = fieldValues m1.fields n ∧ getFirstHeader U h' n = (fieldValues m1.fields n).head?.getD [] := by
    intro n hn
    have := g2.getHeader U n
    rw [toLower_ascii U hn, List.nil_append, fieldValues_eq] at this
    exact this
  have e1 : text "from" = b!"from" := by decide +kernel
  have e2 : text "to" = b!"to" := by decide +kernel
  have e3 : text "contact" = b!"contact" := by decide +kernel
  have e4 : text "via" = b!"via" := by decide +kernel
  have e5 : text "cseq" = b!"cseq" := by decide +kernel
  have e6 : text "content-length" = b!"content-length" := by decide +kernel
  obtain ⟨f, hf⟩ := newSIPUser_vp (good (text "from") (by simp))
  obtain ⟨u, hu⟩ := newSIPUser_vp (good (text "to") (by simp))
  obtain ⟨c, hc⟩ := newSIPUser_vp (good (text "contact") (by simp))
  obtain ⟨v, hv⟩ := newSIPVia_vp (good (text "via") (by simp))
  have hfill := fillHeader_ok U { s0 with headers := some h', last := last } c f u v
    (by show getSIPContact U h' = _; rw [getSIPContact, (hget _ (by decide)).2, ← e3]; exact hc)
    (by show getSIPFrom U h' = _; rw [getSIPFrom, (hget _ (by decide)).2, ← e1]; exact hf)
    (by show getSIPTo U h' = _; rw [getSIPTo, (hget _ (by decide)).2, ← e2]; exact hu)
    (by show getSIPVia U h' = _; rw [getSIPVia, (hget _ (by decide)).2, ← e4]; exact hv)
  have hlen : getContentLength U h' = .err .other := by
    rw [getContentLength, (hget _ (by decide)).2, ← e6, d1]; rfl
  rw [finish, hfill] at q4
  simp only [fillBody, Sip.hdr, Option.getD_some, hlen] at q4
  have happ : ∀ n, fieldValues (m1.fields ++ m2.fields) n = fieldValues m1.fields n ++ fieldValues m2.fields n := by
    intro n; simp [fieldValues]
  obtain ⟨d, hd, hdec⟩ := dd
  have hn : m2.body.length < 2 ^ 63 := by
    obtain ⟨d', n', h1, h2, h3⟩ := a2.length
    rw [hd, Option.some.injEq] at h1
    rw [← hdec.2.2.2, h1, h2.2.2.2]; exact h3
  have k5 := key (text "cseq") (by decide +kernel)
  obtain ⟨s', t', k, h'', i1, -, i3, -⟩ := receiveMessageInto U r.cap hsize t ht htc (parse U Sip.new r).2.1 h' m1.fields (by rw [q4]) (by simpa using g2) m2 h2 a2.fits a2.short
    (by
      intro n hn v hv
      rw [happ] at hv
      cases he : fieldValues m1.fields n with
      | nil => rw [he] at hv; exact a2.addresses n hn v hv
      | cons x xs => rw [he] at hv; exact c1 n hn v (by rw [he]; exact hv))
    d m2.body.length (by rw [happ, d1]; exact hd) (atoi_decimal hdec hn) m2.body (.inr (by omega)) hw'
  rw [q4] at i1
  refine ⟨_, _, _, s', t', q4, ?_, ⟨fun n hn => (hget n hn).1, fun n hn => (hget n hn).2, ⟨f, hf, rfl⟩, ⟨u, hu, rfl⟩, ⟨c, hc, rfl⟩, ⟨v, hv, rfl⟩, ?_⟩, i1, i3⟩
  · rcases m1 with ⟨_ | _, fs, b⟩
    · obtain ⟨q, hq, rfl⟩ := s6
      exact ⟨rfl, rfl, rfl, q, hq, rfl⟩
    · subst s6
      exact ⟨rfl, rfl, rfl, rfl⟩
  · show some (getSIPCseq U h') = _
    rw [getSIPCseq, (hget _ (by decide)).2, ← e5]

/-- C151, refuted: a request of a version that is not known is rejected, but the object shows its method and its address. -/
theorem C151_request_refuted (U : Unicode) (s : Sip) (r : Rd) (hr : r.Ok) (e : UInt16 × String) (he : e ∈ methods) (uri w2 rest : Bytes)
    (hu : ∀ b ∈ uri, b ≠ 0x20 ∧ b ≠ 13 ∧ b ≠ 10) (q : Request) (hq : newSIPRequest uri = .ok q) (h2 : ∀ b ∈ w2, b ≠ 13 ∧ b ≠ 10) (ha : Ascii w2)
    (hv : ∀ v ∈ versions, ¬ SameText w2 (text v.2)) (hlen : uri.length + w2.length + 12 < r.cap)
    (hw : r.all = text e.2 ++ 0x20 :: (uri ++ 0x20 :: w2) ++ 13 :: 10 :: rest) :
    ∃ x s' r', parse U s r = (.err x, s', r') ∧ s'.method = e.1 ∧ s'.request = some q := by
  have htab : ∀ e ∈ methods, (∀ b ∈ text e.2, b ≠ 0x20 ∧ b ≠ 13 ∧ b ≠ 10 ∧ b < 0x80) ∧ text e.2 ≠ [] ∧ (text e.2).length ≤ 9 ∧
      hasPrefix (text e.2) b!"SIP" = false := by decide +kernel
  obtain ⟨t1, t2, t3, t4⟩ := htab e he
  obtain ⟨x, hx⟩ := C71_versions_other U w2 ha hv
  have hm := (C71_methods U e he).2 (text e.2) (fun b hb => (t1 b hb).2.2.2) rfl
  have hfirst : parseFirstLine U (text e.2 ++ 0x20 :: (uri ++ 0x20 :: w2)) s = (.err .other, { s with method := e.1, request := some q, version := 0 }) := by
    rw [parseFirstLine, splitN_two (fun h => (t1 _ h).1 rfl) (fun h => (hu _ h).1 rfl)]
    simp only [t4, hm, hq, hx, GoM.bind_apply, GoM.modify_apply, GoM.fail_apply, GoM.lift_apply, Bool.false_eq_true, if_false]
  obtain ⟨r1, h⟩ := parse_first_err U s _ r hr _ rest
    (by
      intro b hb
      simp only [List.mem_append, List.mem_cons] at hb
      rcases hb with hb | rfl | hb | rfl | hb
      · exact (t1 b hb).2.imp id And.left
      · decide
      · exact (hu b hb).2
      · decide
      · exact h2 b hb) (by simp) (by simp; omega) hw _ hfirst
  exact ⟨_, _, r1, h, rfl, rfl⟩

/-- C151, refuted: after a line that only begins like a status line (its code is no number) has been rejected, the object takes every
request for a response. -/
theorem C151_response_refuted (U : Unicode) (size : Nat) (hsize : 2 ≤ size) (r : Rd) (hr : r.Ok) (hcap : r.cap = size) (w1 p rest : Bytes)
    (h1 : ∀ b ∈ w1, b ≠ 0x20 ∧ b ≠ 13 ∧ b ≠ 10) (hp : ∀ b ∈ p, b ≠ 13 ∧ b ≠ 10) (hno : ∀ i, ¬ IsInteger w1 i) (hlen : w1.length + p.length + 10 < size)
    (hw : r.all = text "SIP/2.0" ++ 0x20 :: (w1 ++ 0x20 :: p) ++ 13 :: 10 :: rest)
    (m : Message) (hreq : ∃ e u, m.start = .request e u) (hst : m.start.Fits size) (ha : Acceptable size m.fields)
    (hdecl : Declares m.fields m.body.length) (t : Rd) (ht : t.Ok) (htc : t.cap = size) (hw' : t.all = m.wire) :
    ∃ x s r' s' t', parse U Sip.new r = (.err x, s, r') ∧ parse U s t = (.ok (), s', t') ∧ s'.isResponse = true ∧ ¬ StartRead s' m.start := by
  subst hcap
  have e2 : text "SIP/2.0" = b!"SIP/2.0" := by decide +kernel
  have hat : atoi w1 = .err .other := by
    rcases atoi_total w1 with ⟨i, hi⟩ | h
    · exact absurd ((atoi_iff w1 i).1 hi).1 (hno i)
    · exact h
  have hfirst : parseFirstLine U (text "SIP/2.0" ++ 0x20 :: (w1 ++ 0x20 :: p)) Sip.new = (.err .other, { Sip.new with isResponse := true, version := 2 }) := by
    rw [parseFirstLine, splitN_two (by decide +kernel) (fun h => (h1 _ h).1 rfl), e2]
    simp only [show hasPrefix b!"SIP/2.0" b!"SIP" = true by decide, version2 U, hat, GoM.bind_apply, GoM.modify_apply, GoM.lift_apply, if_true]
  obtain ⟨r1, h⟩ := parse_first_err U Sip.new _ r hr _ rest
    (by
      intro b hb
      simp only [List.mem_append, List.mem_cons] at hb
      rcases hb with hb | rfl | hb | rfl | hb
      · have : ∀ b ∈ text "SIP/2.0", b ≠ 13 ∧ b ≠ 10 := by decide +kernel
        exact this b hb
      · decide
      · exact (h1 b hb).2
      · decide
      · exact hp b hb) (by simp) (by rw [e2]; simp; omega) hw _ hfirst
  obtain ⟨d, hd, hdec⟩ := hdecl
  have hn : m.body.length < 2 ^ 63 := by
    obtain ⟨d', n', h1, h2, h3⟩ := ha.length
    rw [hd, Option.some.injEq] at h1
    rw [← hdec.2.2.2, h1, h2.2.2.2]; exact h3
  obtain ⟨s', t', k, h', i1, -, -, -, -, -, -, -, -, -, -, -, i2⟩ := receiveMessageInto U r.cap hsize t ht htc { Sip.new with isResponse := true, version := 2 } [] [] rfl shows_nil m hst
    ha.fits ha.short (by simpa using ha.addresses) d m.body.length (by simpa using hd) (atoi_decimal hdec hn) m.body (.inr (by omega)) hw'
  have i2 : s'.isResponse = true := by simpa using i2
  refine ⟨_, _, r1, s', t', h, i1, i2, ?_⟩
  obtain ⟨e, u, he⟩ := hreq
  rw [he]
  rintro ⟨hf, -⟩
  rw [i2] at hf
  exact absurd hf (by decide)

/-! ### Cases that meet the hypotheses -/

/-- Two words. -/
example (U : Unicode) (s : Sip) : ∃ e r', parse U s ⟨[], [text "INVITE sip:a@b\r\nTo: <sip:a@b>\r\n\r\n"], 4096, .eof⟩ = (.err e, s, r') :=
  C151_words_partial U s _ ⟨by decide, by decide +kernel⟩ (text "INVITE sip:a@b") (text "To: <sip:a@b>\r\n\r\n") (by decide +kernel) (by decide +kernel)
    (by decide +kernel) (by decide +kernel) (by
      intro w0 w1 w2 h
      have := congrArg (List.count 0x20) h
      simp only [List.count_append, List.count_cons_self] at this
      have h1 : (text "INVITE sip:a@b").count 0x20 = 1 := by decide +kernel
      omega)

/-- An unknown method, and then an INVITE into the same object. -/
example (U : Unicode) : ∃ e s r', parse U Sip.new ⟨[], [text "KILL sip:a@b SIP/2.0\r\nTo: <sip:a@b>\r\n\r\n"], 4096, .eof⟩ = (.err e, s, r') ∧
    ∃ s' t', parse U s ⟨[], [(someMessage "hello" "5").wire], 4096, .other⟩ = (.ok (), s', t') ∧ StartRead s' (someMessage "hello" "5").start := by
  obtain ⟨e, s, r', h1, -, -, -, h2⟩ := C151_method_partial U 4096 (by decide) ⟨[], [text "KILL sip:a@b SIP/2.0\r\nTo: <sip:a@b>\r\n\r\n"], 4096, .eof⟩ ⟨by decide, by decide +kernel⟩ rfl
    (text "KILL") (text "sip:a@b") (text "SIP/2.0") (text "To: <sip:a@b>\r\n\r\n") (by decide +kernel) (by decide +kernel) (by decide +kernel) (by simp only [Ascii]; decide +kernel)
    (by simp only [SameText]; decide +kernel) (by decide +kernel) (by decide +kernel) (by decide +kernel)
  obtain ⟨g1, g2, g3⟩ := someMessage_ok "hello" "5" (by decide)
  obtain ⟨s', t', i1, i2, -⟩ := h2 (someMessage "hello" "5") ⟨[], [(someMessage "hello" "5").wire], 4096, .other⟩ g1 g2 g3 ⟨by decide, by decide +kernel⟩ rfl (by simp [Rd.all])
  exact ⟨e, s, r', h1, s', t', i1, i2⟩

/-- A message without content length. -/
def noLength : Message := { someMessage "hello" "5" with fields := [⟨text "To", 0, 1, text "<sip:bob@biloxi.com>;tag=1", 0, true, []⟩] }

example (U : Unicode) : ∃ e s r' s' t', parse U Sip.new ⟨[], [noLength.wire], 4096, .eof⟩ = (.err e, s, r') ∧ StartRead s noLength.start ∧
    Received U s noLength.fields ∧ parse U s ⟨[], [(someMessage "hello" "5").wire], 4096, .other⟩ = (.ok (), s', t') ∧
    Received U s' (noLength.fields ++ (someMessage "hello" "5").fields) := by
  obtain ⟨g1, g2, g3⟩ := someMessage_ok "hello" "5" (by decide)
  refine C151_headers_refuted U 4096 (by decide) noLength (someMessage "hello" "5") g1 g1 (fun f hf => g2.fits f ?_) (by decide +kernel) ?_ (by decide +kernel) g2 g3 _ _
    ⟨by decide, by decide +kernel⟩ ⟨by decide, by decide +kernel⟩ rfl rfl (by simp [Rd.all]) (by simp [Rd.all])
  · obtain rfl : f = _ := by simpa [noLength] using hf
    simp [someMessage]
  · intro n hn v hv
    have : ∀ n ∈ [text "from", text "to", text "contact", text "via"], ∀ v ∈ (fieldValues noLength.fields n).head?, valuesPresentB v = true := by decide +kernel
    exact valuesPresent_of (this n hn v hv)

/-- The body of that message is not kept. -/
example (U : Unicode) : ∃ e s r', parse U Sip.new ⟨[], [noLength.wire], 4096, .eof⟩ = (.err e, s, r') ∧ s.payload = [] := by
  obtain ⟨g1, g2, g3⟩ := someMessage_ok "hello" "5" (by decide)
  have hadd : ∀ n ∈ [text "from", text "to", text "contact", text "via"], ∀ v ∈ (fieldValues noLength.fields n).head?, valuesPresentB v = true := by decide +kernel
  obtain ⟨e, s, r', -, -, h, -⟩ := C151_headers_refuted U 4096 (by decide) noLength (someMessage "hello" "5") g1 g1
    (fun f hf => g2.fits f (by obtain rfl : f = _ := by simpa [noLength] using hf
                               simp [someMessage])) (by decide +kernel) (fun n hn v hv => valuesPresent_of (hadd n hn v hv)) (by decide +kernel) g2 g3
    ⟨[], [noLength.wire], 4096, .eof⟩ ⟨[], [(someMessage "hello" "5").wire], 4096, .eof⟩
    ⟨by decide, by decide +kernel⟩ ⟨by decide, by decide +kernel⟩ rfl rfl (by simp [Rd.all]) (by simp [Rd.all])
  exact ⟨e, s, r', h, (C151_body_partial U _ _ _ _ _ h (by simp)).2⟩

/-- A request of SIP/3.0. -/
example (U : Unicode) : ∃ x s' r', parse U Sip.new ⟨[], [text "INVITE sip:a@b SIP/3.0\r\n\r\n"], 4096, .eof⟩ = (.err x, s', r') ∧ s'.method = 1 ∧
    s'.request = some ⟨text "sip", text "a", text "b", [], []⟩ :=
  C151_request_refuted U Sip.new _ ⟨by decide, by decide +kernel⟩ (1, "INVITE") (by decide) (text "sip:a@b") (text "SIP/3.0") (text "\r\n") (by decide +kernel) _
    (by decide +kernel) (by decide +kernel) (by simp only [Ascii]; decide +kernel) (by simp only [SameText]; decide +kernel) (by decide +kernel) (by decide +kernel)

/-- A status line without a code. -/
example (U : Unicode) : ∃ x s r' s' t', parse U Sip.new ⟨[], [text "SIP/2.0 OK then\r\n\r\n"], 4096, .eof⟩ = (.err x, s, r') ∧
    parse U s ⟨[], [(someMessage "hello" "5").wire], 4096, .other⟩ = (.ok (), s', t') ∧ s'.isResponse = true ∧ ¬ StartRead s' (someMessage "hello" "5").start := by
  obtain ⟨g1, g2, g3⟩ := someMessage_ok "hello" "5" (by decide)
  refine C151_response_refuted U 4096 (by decide) _ ⟨by decide, by decide +kernel⟩ rfl (text "OK") (text "then") (text "\r\n") (by decide +kernel) (by decide +kernel) ?_ (by decide +kernel) (by decide +kernel)
    (someMessage "hello" "5") ⟨_, _, rfl⟩ g1 g2 g3 _ ⟨by decide, by decide +kernel⟩ rfl (by simp [Rd.all])
  intro i hi
  have e : text "OK" = [79, 75] := by decide +kernel
  obtain ⟨d, -, h1, ⟨h2, -⟩ | ⟨h2, -⟩ | ⟨h2, -⟩⟩ := hi
  · exact absurd (h1 79 (by rw [← h2, e]; simp)) (by decide)
  all_goals rw [e] at h2; simp at h2

end Verif.Props
