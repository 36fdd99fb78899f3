import Verif.Props.SipsConn
/-!
# Properties of package `sips`: forwarding a message, and what is kept of it (C116, C117)
-/
namespace Verif.Props
open Verif.Sips Verif.Str Verif.Spec.Sips

theorem version_chars : ∀ e ∈ versions, (∀ b ∈ text e.2, b ≠ 0x20 ∧ b ≠ 13 ∧ b ≠ 10 ∧ b < 0x80) ∧ (text e.2).length = 7 ∧
    hasPrefix (text e.2) b!"SIP" = true := by decide +kernel

/-- C116 (partial): a request object in any state, such as one that `Parse` has filled, can be written with `Bytes` and is parsed
back: method, request URI, version, headers and addresses.  (Missing: headers with several values, C103; the body, see
`C116_payload_grows_refuted`.) -/
theorem C116_request_partial (U : Unicode) (order : Hdr → Hdr) (ho : ∀ x, (order x).Perm x) (s : Sip) (hr : s.isResponse = false)
    (e : UInt16 × String) (he : e ∈ methods) (hm : s.method = e.1) (ve : UInt8 × String) (hve : ve ∈ versions) (hv : s.version = ve.1)
    (q : Request) (hsq : s.request = some q) (ht : q.uriType = text "sip" ∨ q.uriType = text "sips" ∨ q.uriType = text "tel")
    (hu : ∀ b ∈ q.user, b ≠ 0x40 ∧ b ≠ 0x3b) (hho : ∀ b ∈ q.host, b ≠ 0x3a ∧ b ≠ 0x3b) (hpo : ∀ b ∈ q.port, b ≠ 0x3b)
    (ha : ArgMap q.args) (hq : ∀ b ∈ q.bytes, b ≠ 0x20 ∧ b ≠ 13 ∧ b ≠ 10) (hql : q.bytes.length ≤ 4000)
    (hs : List (Bytes × Bytes)) (hh : HeadersOk hs) (hsh : s.headers = some (hs.map fun e => (e.1, [e.2]))) (hbody : s.payload.length < 2 ^ 63) :
    ∃ w m, (s.bytes U order).1 = .ok w ∧ parseBytes U Sip.new w = (.ok (), m) ∧ m.isResponse = false ∧ m.method = s.method ∧
      m.version = s.version ∧ m.request = s.request ∧ Recovered m hs s.payload := by
  have htab : ∀ e ∈ methods, (∀ b ∈ text e.2, b ≠ 0x20 ∧ b ≠ 13 ∧ b ≠ 10 ∧ b < 0x80) ∧ text e.2 ≠ [] ∧ (text e.2).length ≤ 9 ∧
      hasPrefix (text e.2) b!"SIP" = false := by decide +kernel
  obtain ⟨t1, t2, t3, t4⟩ := htab e he
  obtain ⟨m1, m2⟩ := C71_methods U e he
  obtain ⟨v1, v2⟩ := C71_versions U ve hve
  obtain ⟨v3, v4, -⟩ := version_chars ve hve
  have hparse : newSIPRequest q.bytes = .ok q := newSIPRequest_bytes q ⟨by
      rcases ht with h | h | h <;> rw [h] <;> decide +kernel, fun b hb => ⟨(hu b hb).2, (hu b hb).1⟩,
      fun b hb => ⟨(hho b hb).2, (hho b hb).1⟩, hpo, ha⟩
  have hline : firstLineBytes s = .ok (text e.2 ++ 0x20 :: (q.bytes ++ 0x20 :: text ve.2)) := by
    rw [firstLineBytes, hr, hsq]
    simp only [Bool.false_eq_true, if_false]
    rw [hm, m1, hv, v1]
    simp
  obtain ⟨w, m, g1, g2, g3, h, l, c, f, t, v, p, cq, x, g4⟩ := recover U order ho s _ _ hs hh hsh hline
    (parseFirstLine_request U Sip.new (text e.2) q.bytes (text ve.2) e.1 ve.1 q (fun h => (t1 _ h).1 rfl) (fun h => (hq _ h).1 rfl) t4
      (m2 _ (fun b hb => (t1 b hb).2.2.2) rfl) hparse (v2 _ (fun b hb => (v3 b hb).2.2.2) rfl)) rfl
    (by
      intro b hb
      simp only [List.mem_append, List.mem_cons] at hb
      rcases hb with hb | rfl | hb | rfl | hb
      · exact (t1 b hb).2.imp_right And.left
      · decide
      · exact (hq b hb).2
      · decide
      · exact ⟨(v3 b hb).2.1, (v3 b hb).2.2.1⟩) (by simp) (by simp; omega) hbody
  refine ⟨w, m, g1, g2, ?_, ?_, ?_, ?_, g3⟩ <;> rw [g4]
  · rfl
  · exact hm.symm
  · exact hv.symm
  · exact hsq.symm

/-- C116 (partial): the same for responses, except for the phrase: the standard phrase of the code is
written, whatever was received (and another one for 480 and 504, C102). -/
theorem C116_response_partial (U : Unicode) (order : Hdr → Hdr) (ho : ∀ x, (order x).Perm x) (s : Sip) (hr : s.isResponse = true)
    (hc1 : -2 ^ 63 ≤ s.responseCode) (hc2 : s.responseCode < 2 ^ 63) (ve : UInt8 × String) (hve : ve ∈ versions) (hv : s.version = ve.1)
    (hs : List (Bytes × Bytes)) (hh : HeadersOk hs) (hsh : s.headers = some (hs.map fun e => (e.1, [e.2]))) (hbody : s.payload.length < 2 ^ 63) :
    ∃ w m, (s.bytes U order).1 = .ok w ∧ parseBytes U Sip.new w = (.ok (), m) ∧ m.isResponse = true ∧ m.responseCode = s.responseCode ∧
      m.version = s.version ∧ (∀ e ∈ reasonPhrases, e.1 ≠ 480 → e.1 ≠ 504 → e.1 = s.responseCode → m.responseStatus = text e.2) ∧ Recovered m hs s.payload := by
  have htab : ∀ e ∈ statusTexts, (∀ b ∈ e.2, b ≠ 13 ∧ b ≠ 10) ∧ e.2.length ≤ 100 := by decide +kernel
  generalize hcode : s.responseCode = code at *
  have htext : (∀ b ∈ statusText code, b ≠ 13 ∧ b ≠ 10) ∧ (statusText code).length ≤ 100 := by
    rw [statusText]
    cases hl : statusTexts.lookup code with
    | none => simp
    | some v => exact htab (code, v) (lookup_mem _ _ _ hl)
  have hdig : ∀ b ∈ itoa code, b ≠ 0x20 ∧ b ≠ 13 ∧ b ≠ 10 := by
    intro b hb
    rcases itoa_chars _ b hb with rfl | ⟨h1, -⟩
    · decide
    · rw [UInt8.le_iff_toNat_le] at h1
      refine ⟨?_, ?_, ?_⟩ <;> (rintro rfl; simp at h1)
  have hlen : (itoa code).length ≤ 30 := by
    by_cases hneg : code < 0
    · have h1 := digitsAux_spec (code.natAbs + 1) code.natAbs (by omega)
      rw [itoa, if_pos hneg]
      by_cases hmin : code.natAbs < 2 ^ 63
      · have := isDecimal_length h1 hmin
        simp; omega
      · have : code = -2 ^ 63 := by omega
        subst this
        decide +kernel
    · have := isDecimal_length (itoa_nat code.natAbs) (by omega)
      rw [show ((code.natAbs : Nat) : Int) = code by omega] at this
      omega
  obtain ⟨v1, v2⟩ := C71_versions U ve hve
  obtain ⟨v3, v4, v5⟩ := version_chars ve hve
  have hline : firstLineBytes s = .ok (text ve.2 ++ 0x20 :: (itoa code ++ 0x20 :: statusText code)) := by
    rw [firstLineBytes, if_pos hr, hv, v1, hcode, statusString]
    simp
  obtain ⟨w, m, g1, g2, g3, h, l, c, f, t, v, p, cq, x, g4⟩ := recover U order ho s _ _ hs hh hsh hline
    (parseFirstLine_response U Sip.new (text ve.2) (itoa code) (statusText code) code ve.1 (fun h => (v3 _ h).1 rfl) (fun h => (hdig _ h).1 rfl)
      v5 (v2 _ (fun b hb => (v3 b hb).2.2.2) rfl) (atoi_itoa hc1 hc2)) rfl
    (by
      intro b hb
      rcases List.mem_append.1 hb with hb | hb
      · exact ⟨(v3 b hb).2.1, (v3 b hb).2.2.1⟩
      rw [List.mem_cons, List.mem_append, List.mem_cons] at hb
      rcases hb with rfl | hb | rfl | hb
      · decide
      · exact (hdig b hb).2
      · decide
      · exact htext.1 b hb) (by simp) (by simp; have := htext.2; omega) hbody
  refine ⟨w, m, g1, g2, ?_, ?_, ?_, ?_, g3⟩ <;> rw [g4]
  · exact hv.symm
  · intro e he n1 n2 h
    rw [← h]
    exact C102_phrases_partial e he n1 n2

/-- C116 fails for the body: a payload of at least three bytes has two more bytes after it has been written and parsed, if the
message fits one read; so it grows with every hop. -/
theorem C116_payload_grows_refuted (U : Unicode) (order : Hdr → Hdr) (ho : ∀ x, (order x).Perm x) (s m : Sip) (hs : List (Bytes × Bytes))
    (hh : HeadersOk hs) (hsh : s.headers = some (hs.map fun e => (e.1, [e.2])))
    (hreq : s.isResponse = true ∨ ∃ q, s.request = some q ∧ (10 : UInt8) ∉ q.bytes)
    (w : Bytes) (hw : (s.bytes U order).1 = .ok w) (hlen : w.length ≤ 4096) (hbody : 3 ≤ s.payload.length)
    (hp : parseBytes U Sip.new w = (.ok (), m)) (hm : Recovered m hs s.payload) : m.payload = 13 :: 10 :: s.payload := by
  obtain ⟨ls, -, h1, h2⟩ := bytes_lines U s (s.bytes U order).2 _ hsh (by
    intro e he
    obtain ⟨x, hx, rfl⟩ := List.mem_map.1 he
    refine ⟨by simp, fun h => ?_, fun v hv => ?_⟩
    · have := ((hh.names x hx).2 _ h).1
      simp at this
    · have : v = x.2 := by simpa using hv
      subst this
      exact fun h => ((hh.values x hx).1 _ h).2 rfl) hreq order ho w (by rw [← hw])
  have hne : s.payload ≠ [] := by rintro h; simp [h] at hbody
  rw [if_neg hne] at h1
  have h1 : w = joinLines ls ++ ([13] ++ 10 :: s.payload) := h1
  rw [parseBytes] at hp
  simp only [Rd.ofBytes] at hp
  have h10 : (10 : UInt8) ∈ w := by rw [h1]; simp
  rw [parse_load U Sip.new w [] 4096 .eof h10 hlen, h1] at hp
  rcases hpp : parse U Sip.new ⟨joinLines ls ++ ([13] ++ 10 :: s.payload), [], 4096, .eof⟩ with ⟨res, m', r'⟩
  rw [hpp] at hp
  simp only [Prod.mk.injEq] at hp
  obtain ⟨rfl, rfl⟩ := hp
  obtain ⟨d, hd, hn, hmem⟩ := hm.headers
  have hcl : text "content-length" = b!"content-length" := by decide +kernel
  have hget : getContentLength U m'.hdr = .ok ((s.payload.length : Nat) : Int) := by
    rw [getContentLength, getFirstHeader_one U (lower_cl U) (mem_of_mget hn (by rw [← hcl]; exact (hmem _).2 (.inl rfl)))]
    exact atoi_decimal hd (by rw [h1] at hlen; simp at hlen; omega)
  have hlens : ∀ (ls : List Bytes) l, l ∈ ls → l.length ≤ (joinLines ls).length := by
    intro ls
    induction ls with
    | nil => simp
    | cons a ls ih =>
      intro l hl
      rw [joinLines_cons]
      rcases List.mem_cons.1 hl with rfl | hl
      · simp
      · have := ih l hl
        simp; omega
  have hlen' := hlen
  rw [h1] at hlen'
  obtain ⟨-, p2, p3⟩ := parse_buf U Sip.new m' r' ls [13] s.payload [] 4096 .eof (by simp) (by
    intro l hl
    obtain ⟨g1, c, g2, g3⟩ := h2 l hl
    refine ⟨g1, fun ht => ?_, ?_⟩
    · have := (trim_eq_nil_iff _ _).1 ht c g2
      simp only [crlf, Bool.or_eq_true, beq_iff_eq] at this
      rcases this with rfl | rfl
      · exact g3 rfl
      · exact g1 g2
    · have := hlens ls l hl
      simp at hlen'
      omega) hlen' (by simp at hlen'; omega) _ hpp hget
  have hr' := p2 (by simp; omega) (by simp; omega)
  subst hr'
  simpa [Rd.all] using p3

/-- The messages of the examples: what a proxy has received. -/
def heard : Sip := { Sip.new with method := 3, version := 1, request := some someRequest, payload := text "\r\nhello", headers := some (someHeaders.map one) }

example (U : Unicode) : ∃ w m, (heard.bytes U List.reverse).1 = .ok w ∧ parseBytes U Sip.new w = (.ok (), m) ∧ m.isResponse = false ∧
    m.method = heard.method ∧ m.version = heard.version ∧ m.request = heard.request ∧ Recovered m someHeaders heard.payload :=
  C116_request_partial U List.reverse (fun _ => List.reverse_perm _) heard rfl (3, "BYE") (by decide) rfl (1, "SIP/1.0") (by decide) rfl
    someRequest rfl (.inr (.inl rfl)) (by decide +kernel) (by decide +kernel) (by decide +kernel) someArgs_ok (by decide +kernel)
    (by decide +kernel) someHeaders someHeaders_ok rfl (by decide +kernel)

example (U : Unicode) : ∃ w m, ({ heard with isResponse := true, responseCode := 486 }.bytes U List.reverse).1 = .ok w ∧
    parseBytes U Sip.new w = (.ok (), m) ∧ m.isResponse = true ∧ m.responseCode = 486 ∧ m.version = 1 ∧
    (∀ e ∈ reasonPhrases, e.1 ≠ 480 → e.1 ≠ 504 → e.1 = 486 → m.responseStatus = text e.2) ∧ Recovered m someHeaders heard.payload :=
  C116_response_partial U List.reverse (fun _ => List.reverse_perm _) { heard with isResponse := true, responseCode := 486 } rfl
    (by decide) (by decide) (1, "SIP/1.0") (by decide) rfl someHeaders someHeaders_ok rfl (by decide +kernel)

/-- The message as forwarded, and its payload after one more hop. -/
example : ∃ m, m.payload = text "\r\n\r\nhello" ∧ ∃ w, (heard.bytes plainU id).1 = .ok w ∧ parseBytes plainU Sip.new w = (.ok (), m) := by
  obtain ⟨w, m, h1, h2, -, -, -, -, h3⟩ := C116_request_partial plainU id (fun _ => .refl _) heard rfl (3, "BYE") (by decide) rfl (1, "SIP/1.0")
    (by decide) rfl someRequest rfl (.inr (.inl rfl)) (by decide +kernel) (by decide +kernel) (by decide +kernel) someArgs_ok (by decide +kernel)
    (by decide +kernel) someHeaders someHeaders_ok rfl (by decide +kernel)
  have hlen : ∀ w, (heard.bytes plainU id).1 = .ok w → w.length ≤ 4096 := by
    have : (match (heard.bytes plainU id).1 with | .ok w => decide (w.length ≤ 4096) | _ => true) = true := by decide +kernel
    intro w hw
    rw [hw] at this
    exact of_decide_eq_true this
  exact ⟨m, by
    rw [C116_payload_grows_refuted plainU id (fun _ => .refl _) heard m someHeaders someHeaders_ok rfl (.inr ⟨_, rfl, by decide +kernel⟩) w h1 (hlen w h1)
      (by decide +kernel) h2 h3]
    decide +kernel, w, h1, h2⟩

/-! ## C117 -/

/-- C117: whatever the state of the object and however the input is cut, a successful `Parse` splits the input: the header section it
keeps, the payload, and what stays in the reader are together exactly the bytes that were there, in their order. -/
theorem C117_nothing_lost (U : Unicode) (s s' : Sip) (r r' : Rd) (hr : r.Ok) (h : parse U s r = (.ok (), s', r')) :
    s'.contents ++ s'.payload ++ r'.all = r.all := parse_keeps U s s' r r' hr h

example : (parse plainU Sip.new ⟨[], [text "SIP/2.0 200 OK\r\nContent-Length: 5\r", text "\n\r\nhe", text "llo", text "more"], 4096, .eof⟩).1 = .ok () ∧
    (⟨[], [text "SIP/2.0 200 OK\r\nContent-Length: 5\r", text "\n\r\nhe", text "llo", text "more"], 4096, .eof⟩ : Rd).Ok := by
  refine ⟨by decide +kernel, by decide, by decide⟩

end Verif.Props
