import Verif.Props.SipsMsg
/-!
# Property C156: a header value stays in its header
-/
namespace Verif.Props
open Verif Verif.Str Verif.Sips Verif.Spec.Sips

/-- The header `k` with a line break in its value, as two headers. -/
def splitAt (k a n x : Bytes) (l : Hdr) : Hdr := l.flatMap fun e => if e.1 = k then [(k, [a]), (n, [x])] else [e]

theorem splitAt_bytes (k a n x : Bytes) (l : Hdr) (h : ∀ e ∈ l, e.1 = k → e.2 = [a ++ text "\r\n" ++ n ++ text ": " ++ x]) :
    hdrBytes (splitAt k a n x l) = hdrBytes l := by
  induction l with
  | nil => rfl
  | cons e l ih =>
    have ih := ih fun e he => h e (by simp [he])
    have h1 : text "\r\n" = b!"\r\n" := by decide +kernel
    have h2 : text ": " = b!":" ++ b!" " := by decide +kernel
    simp only [hdrBytes, splitAt, List.flatMap_cons, List.map_append, List.map_cons, List.flatten_append, List.flatten_cons] at ih ⊢
    rw [ih]
    congr 1
    by_cases he : e.1 = k
    · have := h e (by simp) he
      rw [if_pos he]
      simp [headerItem, this, he, h1, h2]
    · rw [if_neg he]
      simp

theorem splitAt_perm (k a n x : Bytes) {l l' : Hdr} (h : l.Perm l') : (splitAt k a n x l).Perm (splitAt k a n x l') :=
  h.flatMap_right _

theorem splitAt_other (k a n x : Bytes) (l : Hdr) (h : ∀ e ∈ l, e.1 ≠ k) : splitAt k a n x l = l := by
  induction l with
  | nil => rfl
  | cons e l ih =>
    have := ih fun e he => h e (by simp [he])
    rw [splitAt] at this ⊢
    rw [List.flatMap_cons, if_neg (h e (by simp)), this]
    rfl

theorem splitAt_mset (k a n x i c v : Bytes) (l : Hdr) (hl : ∀ e ∈ l, e.1 ≠ k) (hk : k ≠ c) (hn : n ≠ c) :
    splitAt k a n x (mset (l ++ [(k, [i])]) c [v]) = mset (l ++ [(k, [a]), (n, [x])]) c [v] := by
  have e1 : (l ++ [(k, [i])]).any (fun e => e.1 == c) = l.any fun e => e.1 == c := by simp [hk]
  have e2 : (l ++ [(k, [a]), (n, [x])]).any (fun e => e.1 == c) = l.any fun e => e.1 == c := by simp [hk, hn]
  unfold mset
  rw [e1, e2]
  split
  · have : ∀ e ∈ l.map (fun e => if e.1 = c then (c, [v]) else e), e.1 ≠ k := by
      intro e he
      obtain ⟨y, hy, rfl⟩ := List.mem_map.1 he
      split
      · exact fun h => hk h.symm
      · exact hl y hy
    have := splitAt_other k a n x _ this
    simp only [List.map_append, List.map_cons, List.map_nil, if_neg hk, if_neg hn]
    unfold splitAt at this ⊢
    rw [List.flatMap_append, this]
    simp
  · have := splitAt_other k a n x l hl
    unfold splitAt at this ⊢
    rw [List.flatMap_append, List.flatMap_append, this]
    simp [Ne.symm hk]

/-- A message with a line break in a value is written like the one with two headers. -/
theorem inject_bytes (U : Unicode) (order : Hdr → Hdr) (ho : ∀ x, (order x).Perm x) (s : Sip) (hs : List (Bytes × Bytes)) (k a n x : Bytes)
    (hd : ((hs ++ [(k, a), (n, x)]).map Prod.fst).Nodup) (hk : k ≠ text "content-length") (hn : n ≠ text "content-length") :
    ∃ order' : Hdr → Hdr, (∀ x, (order' x).Perm x) ∧
      (Sip.bytes U order { s with headers := some ((hs ++ [(k, a ++ text "\r\n" ++ n ++ text ": " ++ x)]).map one) }).1 =
      (Sip.bytes U order' { s with headers := some ((hs ++ [(k, a), (n, x)]).map one) }).1 := by
  have hcl : text "content-length" = b!"content-length" := by decide +kernel
  rw [hcl] at hk hn
  have hkey : ∀ e ∈ hs.map one, e.1 ≠ k := by
    intro e he
    obtain ⟨y, hy, rfl⟩ := List.mem_map.1 he
    rw [List.map_append, List.nodup_append] at hd
    exact hd.2.2 y.1 (List.mem_map_of_mem hy) k (by simp)
  let i := a ++ text "\r\n" ++ n ++ text ": " ++ x
  let h1 := setContentLength U ((hs ++ [(k, i)]).map one) s.payload.length
  let h2 := setContentLength U ((hs ++ [(k, a), (n, x)]).map one) s.payload.length
  have e1 : h1 = mset (hs.map one ++ [(k, [i])]) b!"content-length" [itoa s.payload.length] := by
    show setContentLength _ _ _ = _
    rw [setContentLength, setFirstHeader, lower_cl, List.map_append]
    rfl
  have e2 : h2 = mset (hs.map one ++ [(k, [a]), (n, [x])]) b!"content-length" [itoa s.payload.length] := by
    show setContentLength _ _ _ = _
    rw [setContentLength, setFirstHeader, lower_cl, List.map_append]
    rfl
  have hsp : splitAt k a n x h1 = h2 := by
    rw [e1, e2]
    exact splitAt_mset k a n x i _ _ _ hkey hk hn
  have hval : ∀ e ∈ order h1, e.1 = k → e.2 = [i] := by
    intro e he hek
    rw [(ho _).mem_iff, e1, mem_mset_iff] at he
    rcases he with rfl | ⟨he, -⟩
    · exact absurd hek.symm hk
    · rcases List.mem_append.1 he with he | he
      · exact absurd hek (hkey e he)
      · simp only [List.mem_cons, List.not_mem_nil, or_false] at he
        rw [he]
  refine ⟨fun y => if y = h2 then splitAt k a n x (order h1) else y, ?_, ?_⟩
  · intro y
    by_cases hy : y = h2
    · simp only [if_pos hy]
      rw [hy, ← hsp]
      exact splitAt_perm k a n x (ho _)
    · simp only [if_neg hy]
      exact List.Perm.refl _
  · have hf : firstLineBytes { s with headers := some ((hs ++ [(k, i)]).map one) } =
        firstLineBytes { s with headers := some ((hs ++ [(k, a), (n, x)]).map one) } := rfl
    unfold Sip.bytes
    rw [hf]
    cases firstLineBytes { s with headers := some ((hs ++ [(k, a), (n, x)]).map one) } with
    | ok l =>
      show Res.ok (l ++ b!"\r\n" ++ hdrBytes (order h1) ++ _) = Res.ok (l ++ b!"\r\n" ++ hdrBytes (if h2 = h2 then splitAt k a n x (order h1) else h2) ++ _)
      rw [if_pos rfl, splitAt_bytes k a n x _ hval]
    | _ => rfl

/-- What the receiver finds then. -/
theorem inject_found {m : Sip} {hs : List (Bytes × Bytes)} {body k a n x : Bytes} (h : Recovered m (hs ++ [(k, a), (n, x)]) body)
    (hk : k ≠ text "content-length") (hn : n ≠ text "content-length") : (k, [a]) ∈ m.hdr ∧ (n, [x]) ∈ m.hdr := by
  obtain ⟨d, -, -, h3⟩ := h.headers
  exact ⟨(h3 _).2 (.inr ⟨hk, a, rfl, by simp⟩), (h3 _).2 (.inr ⟨hn, x, rfl, by simp⟩)⟩

/-- C156 fails for every request: if the value of a header contains a line break, the receiver finds a further header that was never
set. -/
theorem C156_request_refuted (U : Unicode) (order : Hdr → Hdr) (ho : ∀ x, (order x).Perm x) (e : UInt16 × String) (he : e ∈ methods)
    (q : Request) (ht : q.uriType = text "sip" ∨ q.uriType = text "sips" ∨ q.uriType = text "tel")
    (hu : ∀ b ∈ q.user, b ≠ 0x40 ∧ b ≠ 0x3b) (hho : ∀ b ∈ q.host, b ≠ 0x3a ∧ b ≠ 0x3b) (hpo : ∀ b ∈ q.port, b ≠ 0x3b)
    (ha : ArgMap q.args) (hq : ∀ b ∈ q.bytes, b ≠ 0x20 ∧ b ≠ 13 ∧ b ≠ 10) (hql : q.bytes.length ≤ 4000)
    (hs : List (Bytes × Bytes)) (k a n x : Bytes) (hh : HeadersOk (hs ++ [(k, a), (n, x)])) (hk : k ≠ text "content-length")
    (hn : n ≠ text "content-length") (body : Bytes) (hbody : body.length < 2 ^ 63) :
    n ∉ k :: hs.map Prod.fst ∧
    ∃ w m, ((makeRequest e.1 (some q) (some ((hs ++ [(k, a ++ text "\r\n" ++ n ++ text ": " ++ x)]).map fun e => (e.1, [e.2]))) body).bytes U order).1 = .ok w ∧
      parseBytes U Sip.new w = (.ok (), m) ∧ (k, [a]) ∈ m.hdr ∧ (n, [x]) ∈ m.hdr := by
  obtain ⟨order', ho', hb⟩ := inject_bytes U order ho { Sip.new with method := e.1, request := some q, version := 2, payload := body } hs k a n x hh.distinct hk hn
  obtain ⟨w, m, h1, h2, -, -, -, -, h3⟩ := C80_request_partial U order' ho' e he q ht hu hho hpo ha hq hql _ hh body hbody
  refine ⟨?_, w, m, ?_, h2, inject_found h3 hk hn⟩
  · have := hh.distinct
    rw [List.map_append, List.nodup_append] at this
    intro hx
    rcases List.mem_cons.1 hx with rfl | hx
    · simpa using this.2.1
    · exact this.2.2 n hx n (by simp) rfl
  · rw [← h1, makeRequest, makeRequest]
    show ((Sip.fill _ (some (List.map one _)) body).bytes U order).1 = ((Sip.fill _ (some (List.map one _)) body).bytes U order').1
    rw [fill_eq _ _ body rfl rfl, fill_eq _ _ body rfl rfl]
    exact hb

/-- The same for answers. -/
theorem C156_response_refuted (U : Unicode) (order : Hdr → Hdr) (ho : ∀ x, (order x).Perm x) (code : Int) (hc1 : -2 ^ 63 ≤ code)
    (hc2 : code < 2 ^ 63) (hs : List (Bytes × Bytes)) (k a n x : Bytes) (hh : HeadersOk (hs ++ [(k, a), (n, x)])) (hk : k ≠ text "content-length")
    (hn : n ≠ text "content-length") (body : Bytes) (hbody : body.length < 2 ^ 63) :
    n ∉ k :: hs.map Prod.fst ∧
    ∃ w m, ((makeResponse code (some ((hs ++ [(k, a ++ text "\r\n" ++ n ++ text ": " ++ x)]).map fun e => (e.1, [e.2]))) body).bytes U order).1 = .ok w ∧
      parseBytes U Sip.new w = (.ok (), m) ∧ (k, [a]) ∈ m.hdr ∧ (n, [x]) ∈ m.hdr := by
  obtain ⟨order', ho', hb⟩ := inject_bytes U order ho { Sip.new with isResponse := true, version := 2, responseCode := code, payload := body } hs k a n x hh.distinct hk hn
  obtain ⟨w, m, h1, h2, -, -, -, -, h3⟩ := C80_response_partial U order' ho' code hc1 hc2 _ hh body hbody
  refine ⟨?_, w, m, ?_, h2, inject_found h3 hk hn⟩
  · have := hh.distinct
    rw [List.map_append, List.nodup_append] at this
    intro hx
    rcases List.mem_cons.1 hx with rfl | hx
    · simpa using this.2.1
    · exact this.2.2 n hx n (by simp) rfl
  · rw [← h1, makeResponse, makeResponse]
    show ((Sip.fill _ (some (List.map one _)) body).bytes U order).1 = ((Sip.fill _ (some (List.map one _)) body).bytes U order').1
    rw [fill_eq _ _ body rfl rfl, fill_eq _ _ body rfl rfl]
    exact hb

theorem recovered_names {m : Sip} {hs : List (Bytes × Bytes)} {body : Bytes} (h : Recovered m hs body) :
    ∀ n, n ∈ m.hdr.map Prod.fst ↔ n = text "content-length" ∨ n ∈ hs.map Prod.fst := by
  obtain ⟨d, -, -, h3⟩ := h.headers
  intro n
  simp only [List.mem_map]
  constructor
  · rintro ⟨e, he, rfl⟩
    rcases (h3 e).1 he with rfl | ⟨-, v, -, hv⟩
    · exact .inl rfl
    · exact .inr ⟨_, hv, rfl⟩
  · intro hx
    by_cases hc : n = text "content-length"
    · exact ⟨_, (h3 (text "content-length", [d])).2 (.inl rfl), hc.symm⟩
    · rcases hx with hx | ⟨e, he, rfl⟩
      · exact absurd hx hc
      · exact ⟨(e.1, [e.2]), (h3 _).2 (.inr ⟨hc, e.2, rfl, he⟩), rfl⟩

/-- C156 (partial): without line breaks in the values (`HeaderValue`) the receiver finds exactly the headers that were set, and the
content length.  Missing: values with line breaks (`C156_request_refuted`, `C156_response_refuted`). -/
theorem C156_request_partial (U : Unicode) (order : Hdr → Hdr) (ho : ∀ x, (order x).Perm x) (e : UInt16 × String) (he : e ∈ methods)
    (q : Request) (ht : q.uriType = text "sip" ∨ q.uriType = text "sips" ∨ q.uriType = text "tel")
    (hu : ∀ b ∈ q.user, b ≠ 0x40 ∧ b ≠ 0x3b) (hho : ∀ b ∈ q.host, b ≠ 0x3a ∧ b ≠ 0x3b) (hpo : ∀ b ∈ q.port, b ≠ 0x3b)
    (ha : ArgMap q.args) (hq : ∀ b ∈ q.bytes, b ≠ 0x20 ∧ b ≠ 13 ∧ b ≠ 10) (hql : q.bytes.length ≤ 4000)
    (hs : List (Bytes × Bytes)) (hh : HeadersOk hs) (body : Bytes) (hbody : body.length < 2 ^ 63) :
    ∃ w m, ((makeRequest e.1 (some q) (some (hs.map fun e => (e.1, [e.2]))) body).bytes U order).1 = .ok w ∧
      parseBytes U Sip.new w = (.ok (), m) ∧
      ∀ n, n ∈ m.hdr.map Prod.fst ↔ n = text "content-length" ∨ n ∈ hs.map Prod.fst := by
  obtain ⟨w, m, h1, h2, -, -, -, -, h3⟩ := C80_request_partial U order ho e he q ht hu hho hpo ha hq hql hs hh body hbody
  exact ⟨w, m, h1, h2, recovered_names h3⟩

/-- The same for answers. -/
theorem C156_response_partial (U : Unicode) (order : Hdr → Hdr) (ho : ∀ x, (order x).Perm x) (code : Int) (hc1 : -2 ^ 63 ≤ code)
    (hc2 : code < 2 ^ 63) (hs : List (Bytes × Bytes)) (hh : HeadersOk hs) (body : Bytes) (hbody : body.length < 2 ^ 63) :
    ∃ w m, ((makeResponse code (some (hs.map fun e => (e.1, [e.2]))) body).bytes U order).1 = .ok w ∧
      parseBytes U Sip.new w = (.ok (), m) ∧
      ∀ n, n ∈ m.hdr.map Prod.fst ↔ n = text "content-length" ∨ n ∈ hs.map Prod.fst := by
  obtain ⟨w, m, h1, h2, -, -, -, -, h3⟩ := C80_response_partial U order ho code hc1 hc2 hs hh body hbody
  exact ⟨w, m, h1, h2, recovered_names h3⟩

/-- A display name with a line break, taken from elsewhere, adds a header. -/
def pairHeaders : List (Bytes × Bytes) := [(text "to", text "<sip:alice@atlanta.com>"), (text "subject", text "lunch"),
  (text "route", text "<sip:evil.example>")]

theorem pairHeaders_ok : HeadersOk pairHeaders := by
  have h1 : (pairHeaders.map Prod.fst).Nodup := by decide +kernel
  have h2 : ∀ e ∈ pairHeaders, e.1 ≠ [] ∧ ∀ b ∈ e.1, 0x21 ≤ b ∧ b ≤ 0x7e ∧ b ≠ 0x3a ∧ ¬ (0x41 ≤ b ∧ b ≤ 0x5a) := by decide +kernel
  have h3 : ∀ e ∈ pairHeaders, (∀ b ∈ e.2, b ≠ 13 ∧ b ≠ 10) ∧ e.2.head? ≠ some 0x20 ∧ e.2.getLast? ≠ some 0x20 := by decide +kernel
  have h4 : ∀ e ∈ pairHeaders, e.1.length + e.2.length + 4 ≤ 4096 := by decide +kernel
  have h5 : ∀ e ∈ pairHeaders, valuesPresentB e.2 = true := by decide +kernel
  exact ⟨h1, fun e he => ⟨(h2 e he).1, (h2 e he).2⟩, fun e he => ⟨(h3 e he).1, (h3 e he).2.1, (h3 e he).2.2⟩, h4,
    fun e he _ => valuesPresent_of (h5 e he)⟩

example (U : Unicode) := C156_request_refuted U List.reverse (fun _ => List.reverse_perm _) (3, "BYE") (by decide) someRequest (.inr (.inl rfl))
    (by decide +kernel) (by decide +kernel) (by decide +kernel) someArgs_ok (by decide +kernel) (by decide +kernel)
    [(text "to", text "<sip:alice@atlanta.com>")] (text "subject") (text "lunch") (text "route") (text "<sip:evil.example>")
    pairHeaders_ok (by decide +kernel) (by decide +kernel) (text "hello") (by decide +kernel)
example (U : Unicode) := C156_response_refuted U List.reverse (fun _ => List.reverse_perm _) 486 (by decide) (by decide)
    [(text "to", text "<sip:alice@atlanta.com>")] (text "subject") (text "lunch") (text "route") (text "<sip:evil.example>")
    pairHeaders_ok (by decide +kernel) (by decide +kernel) [] (by decide)
example : text "lunch" ++ text "\r\n" ++ text "route" ++ text ": " ++ text "<sip:evil.example>" =
    text "lunch\r\nroute: <sip:evil.example>" := by decide +kernel
example (U : Unicode) := C156_request_partial U List.reverse (fun _ => List.reverse_perm _) (3, "BYE") (by decide) someRequest (.inr (.inl rfl))
    (by decide +kernel) (by decide +kernel) (by decide +kernel) someArgs_ok (by decide +kernel) (by decide +kernel)
    someHeaders someHeaders_ok (text "hello") (by decide +kernel)
example (U : Unicode) := C156_response_partial U List.reverse (fun _ => List.reverse_perm _) 486 (by decide) (by decide)
    someHeaders someHeaders_ok [] (by decide)

end Verif.Props
