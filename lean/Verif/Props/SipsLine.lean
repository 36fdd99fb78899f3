import Verif.Props.SipsInject
import Verif.Props.SipsAccept
/-!
# Property C162: an address stays in the request line
-/
namespace Verif.Props
open Verif Verif.Str Verif.Sips Verif.Spec.Sips

theorem mset_snoc_perm (l : Hdr) (n x c v : Bytes) (hn : n ≠ c) :
    ((n, [x]) :: mset l c [v]).Perm (mset (l ++ [(n, [x])]) c [v]) := by
  have e : (l ++ [(n, [x])]).any (fun e => e.1 == c) = l.any fun e => e.1 == c := by simp [hn]
  unfold mset
  rw [e]
  split
  · simp only [List.map_append, List.map_cons, List.map_nil, if_neg hn]
    exact (List.perm_append_singleton _ _).symm
  · rw [List.append_assoc]
    exact (List.perm_middle (a := (n, [x])) (l₁ := l) (l₂ := [(c, [v])])).symm

/-- A request whose address contains the rest of a request line and a header is written like the request to the address before
it with that header. -/
theorem line_bytes (U : Unicode) (order : Hdr → Hdr) (ho : ∀ x, (order x).Perm x) (s : Sip) (hr : s.isResponse = false) (hv : s.version = 2)
    (hs : List (Bytes × Bytes)) (q q0 : Request) (n x : Bytes) (hn : n ≠ text "content-length")
    (hq : q.bytes = q0.bytes ++ text " SIP/2.0\r\n" ++ n ++ text ": " ++ x) :
    ∃ order' : Hdr → Hdr, (∀ x, (order' x).Perm x) ∧
      (Sip.bytes U order { s with request := some q, headers := some (hs.map one) }).1 =
      (Sip.bytes U order' { s with request := some q0, headers := some ((hs ++ [(n, x ++ text " SIP/2.0")]).map one) }).1 := by
  have hcl : text "content-length" = b!"content-length" := by decide +kernel
  rw [hcl] at hn
  let h1 := setContentLength U (hs.map one) s.payload.length
  let h2 := setContentLength U ((hs ++ [(n, x ++ text " SIP/2.0")]).map one) s.payload.length
  have e1 : h1 = mset (hs.map one) b!"content-length" [itoa s.payload.length] := by
    show setContentLength _ _ _ = _
    rw [setContentLength, setFirstHeader, lower_cl]
  have e2 : h2 = mset (hs.map one ++ [(n, [x ++ text " SIP/2.0"])]) b!"content-length" [itoa s.payload.length] := by
    show setContentLength _ _ _ = _
    rw [setContentLength, setFirstHeader, lower_cl, List.map_append]
    rfl
  refine ⟨fun y => if y = h2 then (n, [x ++ text " SIP/2.0"]) :: order h1 else y, ?_, ?_⟩
  · intro y
    by_cases hy : y = h2
    · simp only [if_pos hy]
      refine (List.Perm.cons _ (ho h1)).trans ?_
      rw [hy, e1, e2]
      exact mset_snoc_perm _ _ _ _ _ hn
    · simp only [if_neg hy]
      exact List.Perm.refl _
  · unfold Sip.bytes firstLineBytes
    simp only [hr, Bool.false_eq_true, if_false]
    show Res.ok (_ ++ b!"\r\n" ++ hdrBytes (order h1) ++ _) = Res.ok (_ ++ b!"\r\n" ++ hdrBytes (if h2 = h2 then (n, [x ++ text " SIP/2.0"]) :: order h1 else h2) ++ _)
    rw [if_pos rfl, hq, hv]
    have v2 : versionString 2 = b!"SIP/2.0" := by decide +kernel
    have t1 : text " SIP/2.0\r\n" = b!" " ++ b!"SIP/2.0" ++ b!"\r\n" := by decide +kernel
    have t2 : text " SIP/2.0" = b!" " ++ b!"SIP/2.0" := by decide +kernel
    have t3 : text ": " = b!":" ++ b!" " := by decide +kernel
    rw [v2, t1, t2, t3]
    simp [hdrBytes, headerItem]

/-- C162 fails for every request: if the address, after some address `q0`, contains the end of a request line and the beginning of a
header, the receiver finds the request addressed to `q0`, with a header that was never set. -/
theorem C162_header_refuted (U : Unicode) (order : Hdr → Hdr) (ho : ∀ x, (order x).Perm x) (e : UInt16 × String) (he : e ∈ methods)
    (q q0 : Request) (ht : q0.uriType = text "sip" ∨ q0.uriType = text "sips" ∨ q0.uriType = text "tel")
    (hu : ∀ b ∈ q0.user, b ≠ 0x40 ∧ b ≠ 0x3b) (hho : ∀ b ∈ q0.host, b ≠ 0x3a ∧ b ≠ 0x3b) (hpo : ∀ b ∈ q0.port, b ≠ 0x3b)
    (ha : ArgMap q0.args) (hq0 : ∀ b ∈ q0.bytes, b ≠ 0x20 ∧ b ≠ 13 ∧ b ≠ 10) (hql : q0.bytes.length ≤ 4000)
    (n x : Bytes) (hq : q.bytes = q0.bytes ++ text " SIP/2.0\r\n" ++ n ++ text ": " ++ x)
    (hs : List (Bytes × Bytes)) (hh : HeadersOk (hs ++ [(n, x ++ text " SIP/2.0")])) (hn : n ≠ text "content-length")
    (body : Bytes) (hbody : body.length < 2 ^ 63) :
    n ∉ hs.map Prod.fst ∧ q ≠ q0 ∧
    ∃ w m, ((makeRequest e.1 (some q) (some (hs.map fun e => (e.1, [e.2]))) body).bytes U order).1 = .ok w ∧
      parseBytes U Sip.new w = (.ok (), m) ∧ m.request = some q0 ∧ (n, [x ++ text " SIP/2.0"]) ∈ m.hdr := by
  obtain ⟨order', ho', hb⟩ := line_bytes U order ho { Sip.new with method := e.1, version := 2, payload := body } rfl rfl hs q q0 n x hn hq
  obtain ⟨w, m, h1, h2, -, -, -, h4, h3⟩ := C80_request_partial U order' ho' e he q0 ht hu hho hpo ha hq0 hql _ hh body hbody
  refine ⟨?_, ?_, w, m, ?_, h2, h4, ?_⟩
  · have := hh.distinct
    rw [List.map_append, List.nodup_append] at this
    exact fun hx => this.2.2 n hx n (by simp) rfl
  · rintro rfl
    have := congrArg List.length hq
    rw [show text " SIP/2.0\r\n" = [0x20] ++ text "SIP/2.0\r\n" by decide +kernel] at this
    simp only [List.length_append, List.length_cons] at this
    omega
  · rw [← h1, makeRequest, makeRequest]
    show ((Sip.fill _ (some (List.map one _)) body).bytes U order).1 = ((Sip.fill _ (some (List.map one _)) body).bytes U order').1
    rw [fill_eq _ _ body rfl rfl, fill_eq _ _ body rfl rfl]
    exact hb
  · obtain ⟨d, -, -, h3⟩ := h3.headers
    exact (h3 _).2 (.inr ⟨hn, _, rfl, by simp⟩)

theorem sep_first {a b c d : Bytes} {x : UInt8} (ha : x ∉ a) (hc : x ∉ c) (h : a ++ x :: b = c ++ x :: d) : a = c ∧ b = d := by
  induction a generalizing c with
  | nil =>
    cases c with
    | nil => exact ⟨rfl, by simpa using h⟩
    | cons y c => simp only [List.nil_append, List.cons_append, List.cons.injEq] at h; exact absurd (h.1 ▸ List.mem_cons_self) hc
  | cons z a ih =>
    cases c with
    | nil => simp only [List.nil_append, List.cons_append, List.cons.injEq] at h; exact absurd (h.1 ▸ List.mem_cons_self) ha
    | cons y c =>
      simp only [List.cons_append, List.cons.injEq] at h
      obtain ⟨h1, h2⟩ := ih (fun m => ha (by simp [m])) (fun m => hc (by simp [m])) h.2
      exact ⟨by rw [h.1, h1], h2⟩

/-- C162 fails also for every address with a space in it: the receiver does not accept the request. -/
theorem C162_space_refuted (U : Unicode) (order : Hdr → Hdr) (e : UInt16 × String) (he : e ∈ methods) (q : Request)
    (hq : ∀ b ∈ q.bytes, b ≠ 13 ∧ b ≠ 10 ∧ b < 0x80) (hsp : (0x20 : UInt8) ∈ q.bytes) (hs : List (Bytes × Bytes)) (body : Bytes) :
    ∃ w, ((makeRequest e.1 (some q) (some (hs.map fun e => (e.1, [e.2]))) body).bytes U order).1 = .ok w ∧
      (parseBytes U Sip.new w).1 ≠ .ok () := by
  have htab : ∀ e ∈ methods, (∀ b ∈ text e.2, b ≠ 0x20 ∧ b ≠ 13 ∧ b ≠ 10 ∧ b < 0x80) ∧ text e.2 ≠ [] ∧ (text e.2).take 3 ≠ text "SIP" := by decide +kernel
  obtain ⟨t1, t2, t3⟩ := htab e he
  obtain ⟨m1, -⟩ := C71_methods U e he
  rw [makeRequest]
  show ∃ w, ((Sip.fill _ (some (List.map one hs)) body).bytes U order).1 = .ok w ∧ _
  rw [fill_eq _ _ body rfl rfl]
  refine ⟨_, rfl, ?_⟩
  simp only [parseBytes]
  have vs : versionString 2 = text "SIP/2.0" := by decide +kernel
  have hclean : ∀ b ∈ text e.2 ++ 0x20 :: (q.bytes ++ 0x20 :: text "SIP/2.0"), b ≠ 13 ∧ b ≠ 10 := by
    intro b hb
    simp only [List.mem_append, List.mem_cons] at hb
    rcases hb with hb | rfl | hb | rfl | hb
    · exact (t1 b hb).2.imp_right And.left
    · decide
    · exact (hq b hb).imp_right And.left
    · decide
    · have : ∀ b ∈ text "SIP/2.0", b ≠ 13 ∧ b ≠ 10 := by decide +kernel
      exact this b hb
  refine C148_first_line U (Rd.ofBytes _) (ofBytes_ok _).1 (text e.2 ++ 0x20 :: (q.bytes ++ 0x20 :: text "SIP/2.0") ++ [13])
    (text e.2 ++ 0x20 :: (q.bytes ++ 0x20 :: text "SIP/2.0")) (hdrBytes (order (setContentLength U (List.map one hs) ↑(List.length body))) ++
            if List.length body > 0 then [13, 10] ++ body else []) ?_ ?_ ?_ ?_
  · intro h
    rcases List.mem_append.1 h with h | h
    · exact (hclean _ h).2 rfl
    · simp at h
  · refine ⟨[], [13], by simp, by simp, by simp, fun c hc => (hclean c (List.mem_of_mem_head? hc)).1,
      fun c hc => (hclean c (List.mem_of_mem_getLast? hc)).1⟩
  · rw [(ofBytes_ok _).2.1, m1, vs]
    simp only [List.append_assoc, List.cons_append, List.nil_append]
  · intro f hf
    obtain ⟨u1, u2, hu, hu1⟩ := List.eq_append_cons_of_mem hsp
    generalize hg : text e.2 ++ 0x20 :: (q.bytes ++ 0x20 :: text "SIP/2.0") = g at hf
    cases hf with
    | @request w0 w1 w2 m v n0 n1 _ hv =>
      obtain ⟨-, h2⟩ := sep_first (fun h => (t1 _ h).1 rfl) n0 hg
      rw [hu, List.append_assoc, List.cons_append] at h2
      obtain ⟨-, h3⟩ := sep_first hu1 n1 h2
      rw [← h3] at hv
      obtain ⟨y, hy, hsame, -⟩ := hv (by
        intro b hb
        simp only [List.mem_append, List.mem_cons] at hb
        rcases hb with hb | rfl | hb
        · exact (hq b (by rw [hu]; simp [hb])).2.2
        · decide
        · have : ∀ b ∈ text "SIP/2.0", b < 0x80 := by decide +kernel
          exact this b hb)
      have hno : ∀ y ∈ versions, (0x20 : UInt8) ∉ (text y.2).map lowerAscii := by decide +kernel
      refine hno y hy ?_
      rw [← hsame]
      exact List.mem_map.2 ⟨0x20, by simp, by decide⟩
    | @response w0 d p v i n0 h3 _ _ _ _ =>
      obtain ⟨h1, -⟩ := sep_first (fun h => (t1 _ h).1 rfl) n0 hg
      rw [← h1] at h3
      exact t3 h3

/-- C162 (partial): without spaces and line breaks in the address the receiver finds this address, and exactly the headers that were
set and the content length.  Missing: addresses with spaces or line breaks (`C162_header_refuted`, `C162_space_refuted`). -/
theorem C162_partial (U : Unicode) (order : Hdr → Hdr) (ho : ∀ x, (order x).Perm x) (e : UInt16 × String) (he : e ∈ methods)
    (q : Request) (ht : q.uriType = text "sip" ∨ q.uriType = text "sips" ∨ q.uriType = text "tel")
    (hu : ∀ b ∈ q.user, b ≠ 0x40 ∧ b ≠ 0x3b) (hho : ∀ b ∈ q.host, b ≠ 0x3a ∧ b ≠ 0x3b) (hpo : ∀ b ∈ q.port, b ≠ 0x3b)
    (ha : ArgMap q.args) (hq : ∀ b ∈ q.bytes, b ≠ 0x20 ∧ b ≠ 13 ∧ b ≠ 10) (hql : q.bytes.length ≤ 4000)
    (hs : List (Bytes × Bytes)) (hh : HeadersOk hs) (body : Bytes) (hbody : body.length < 2 ^ 63) :
    ∃ w m, ((makeRequest e.1 (some q) (some (hs.map fun e => (e.1, [e.2]))) body).bytes U order).1 = .ok w ∧
      parseBytes U Sip.new w = (.ok (), m) ∧ m.method = e.1 ∧ m.request = some q ∧
      ∀ n, n ∈ m.hdr.map Prod.fst ↔ n = text "content-length" ∨ n ∈ hs.map Prod.fst := by
  obtain ⟨w, m, h1, h2, -, h3, -, h4, h5⟩ := C80_request_partial U order ho e he q ht hu hho hpo ha hq hql hs hh body hbody
  exact ⟨w, m, h1, h2, h3, h4, recovered_names h5⟩

/-- A host taken from elsewhere. -/
def evilRequest : Request := ⟨text "sip", text "bob", text "b.example SIP/2.0\r\nroute: <sip:evil.example>;x", [], []⟩
/-- The address the receiver finds. -/
def seenRequest : Request := ⟨text "sip", text "bob", text "b.example", [], []⟩

theorem evilHeaders_ok : HeadersOk ([(text "to", text "<sip:alice@atlanta.com>")] ++ [(text "route", text "<sip:evil.example>;x" ++ text " SIP/2.0")]) := by
  have h1 : (([(text "to", text "<sip:alice@atlanta.com>")] ++ [(text "route", text "<sip:evil.example>;x" ++ text " SIP/2.0")]).map Prod.fst).Nodup := by decide +kernel
  generalize hp : [(text "to", text "<sip:alice@atlanta.com>")] ++ [(text "route", text "<sip:evil.example>;x" ++ text " SIP/2.0")] = l at *
  have h2 : ∀ e ∈ l, e.1 ≠ [] ∧ ∀ b ∈ e.1, 0x21 ≤ b ∧ b ≤ 0x7e ∧ b ≠ 0x3a ∧ ¬ (0x41 ≤ b ∧ b ≤ 0x5a) := by rw [← hp]; decide +kernel
  have h3 : ∀ e ∈ l, (∀ b ∈ e.2, b ≠ 13 ∧ b ≠ 10) ∧ e.2.head? ≠ some 0x20 ∧ e.2.getLast? ≠ some 0x20 := by rw [← hp]; decide +kernel
  have h4 : ∀ e ∈ l, e.1.length + e.2.length + 4 ≤ 4096 := by rw [← hp]; decide +kernel
  have h5 : ∀ e ∈ l, valuesPresentB e.2 = true := by rw [← hp]; decide +kernel
  exact ⟨h1, fun e he => ⟨(h2 e he).1, (h2 e he).2⟩, fun e he => ⟨(h3 e he).1, (h3 e he).2.1, (h3 e he).2.2⟩, h4,
    fun e he _ => valuesPresent_of (h5 e he)⟩

example (U : Unicode) := C162_header_refuted U List.reverse (fun _ => List.reverse_perm _) (1, "INVITE") (by decide) evilRequest seenRequest (.inl rfl)
    (by decide +kernel) (by decide +kernel) (by decide +kernel) ⟨by simp [seenRequest], by simp [seenRequest], by simp [seenRequest]⟩ (by decide +kernel) (by decide +kernel)
    (text "route") (text "<sip:evil.example>;x") (by decide +kernel) [(text "to", text "<sip:alice@atlanta.com>")] evilHeaders_ok
    (by decide +kernel) (text "hello") (by decide +kernel)
example (U : Unicode) := C162_space_refuted U id (3, "BYE") (by decide) ⟨text "sip", text "bob smith", text "b.example", [], []⟩ (by decide +kernel)
    (by decide +kernel) [] (text "hello")
example (U : Unicode) := C162_partial U List.reverse (fun _ => List.reverse_perm _) (3, "BYE") (by decide) someRequest (.inr (.inl rfl))
    (by decide +kernel) (by decide +kernel) (by decide +kernel) someArgs_ok (by decide +kernel) (by decide +kernel)
    pairHeaders pairHeaders_ok (text "hello") (by decide +kernel)

end Verif.Props
