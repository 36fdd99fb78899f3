import Verif.Model.SipsShare
import Verif.Props.SipsForward
/-!
# Properties of package `sips`: header maps shared between messages, and answers to requests (C141, C142)
-/
namespace Verif.Props
open Verif.Sips Verif.Str Verif.Spec.Sips

/-! ## C141 -/

theorem mset_mset {α} (m : List (Bytes × α)) (k : Bytes) (v w : α) : mset (mset m k v) k w = mset m k w := by
  by_cases h : m.any (fun e => e.1 == k) = true
  · have h2 : (m.map fun e => if e.1 = k then (k, v) else e).any (fun e => e.1 == k) = true := by
      obtain ⟨e, he, hk⟩ := List.any_eq_true.1 h
      refine List.any_eq_true.2 ⟨(k, v), List.mem_map.2 ⟨e, he, ?_⟩, by simp⟩
      rw [if_pos (by simpa using hk)]
    simp only [mset, h, if_true, h2, List.map_map]
    refine List.map_congr_left fun e _ => ?_
    simp only [Function.comp]
    by_cases hk : e.1 = k <;> simp [hk]
  · have h1 : (m ++ [(k, v)]).any (fun e => e.1 == k) = true := by simp
    have h' : ∀ e ∈ m, ¬ e.1 = k := by
      intro e he hk
      exact h (List.any_eq_true.2 ⟨e, he, by simpa using hk⟩)
    simp only [mset, h, if_false, Bool.false_eq_true, h1, if_true, List.map_append, List.map_cons, List.map_nil]
    congr 1
    conv => rhs; rw [← List.map_id m]
    exact List.map_congr_left fun e he => by simp [h' e he]

theorem getD_set (M : Maps) (a b : Nat) (h : Hdr) : (M.set a h).getD b [] = if a = b ∧ a < M.length then h else M.getD b [] := by
  simp only [List.getD_eq_getElem?_getD, List.getElem?_set]
  by_cases hab : a = b
  · subst hab
    by_cases hl : a < M.length
    · simp [hl]
    · simp [hl]
  · simp [hab]

/-- What `Bytes` does to the maps. -/
theorem bytes_maps (U : Unicode) (order : Hdr → Hdr) (M : Maps) (m : Msg) (b : Nat) :
    (m.bytes U order M).2.length = M.length ∧
    ((m.bytes U order M).2.getD b [] = M.getD b [] ∨
      m.addr = some b ∧ (m.bytes U order M).2.getD b [] = setContentLength U (M.getD b []) m.core.payload.length) := by
  rw [Msg.bytes]
  cases ha : m.addr with
  | none => simp
  | some a =>
    have hv : m.view M = { m.core with headers := some (M.getD a []) } := by rw [Msg.view, ha]; rfl
    rw [hv, Sip.bytes]
    cases hl : firstLineBytes { m.core with headers := some (M.getD a []) } with
    | ok l =>
      refine ⟨by simp, ?_⟩
      simp only [getD_set]
      by_cases hab : a = b ∧ a < M.length
      · rw [if_pos hab]
        exact .inr ⟨by rw [hab.1], by rw [hab.1]⟩
      · rw [if_neg hab]
        exact .inl rfl
    | _ =>
      refine ⟨by simp, ?_⟩
      simp only [getD_set]
      by_cases hab : a = b ∧ a < M.length
      · rw [if_pos hab]
        exact .inl (by rw [hab.1])
      · rw [if_neg hab]
        exact .inl rfl

/-- After any number of writes a map is the same except perhaps for its content length. -/
theorem writeAll_maps (U : Unicode) (b : Nat) : ∀ (ms : List (Msg × (Hdr → Hdr))) (M : Maps),
    (writeAll U ms M).length = M.length ∧
    ((writeAll U ms M).getD b [] = M.getD b [] ∨
      (∃ x ∈ ms, x.1.addr = some b) ∧ ∃ n : Int, (writeAll U ms M).getD b [] = setContentLength U (M.getD b []) n)
  | [], M => ⟨rfl, .inl rfl⟩
  | (m, order) :: ms, M => by
    obtain ⟨l1, h1⟩ := bytes_maps U order M m b
    obtain ⟨l2, h2⟩ := writeAll_maps U b ms (m.bytes U order M).2
    rw [writeAll]
    refine ⟨by rw [l2, l1], ?_⟩
    rcases h1 with h1 | ⟨ha, h1⟩ <;> rcases h2 with h2 | ⟨⟨x, hx, hxa⟩, n, h2⟩
    · exact .inl (by rw [h2, h1])
    · exact .inr ⟨⟨x, by simp [hx], hxa⟩, n, by rw [h2, h1]⟩
    · exact .inr ⟨⟨(m, order), by simp, ha⟩, _, by rw [h2, h1]⟩
    · refine .inr ⟨⟨x, by simp [hx], hxa⟩, n, ?_⟩
      rw [h2, h1, setContentLength, setContentLength, setFirstHeader, setFirstHeader, mset_mset]
      rfl

theorem bytes_congr (U : Unicode) (order : Hdr → Hdr) (c : Sip) (h h' : Hdr)
    (e : setContentLength U h c.payload.length = setContentLength U h' c.payload.length) :
    (Sip.bytes U order { c with headers := some h }).1 = (Sip.bytes U order { c with headers := some h' }).1 := by
  have e1 : firstLineBytes { c with headers := some h } = firstLineBytes c := rfl
  have e2 : firstLineBytes { c with headers := some h' } = firstLineBytes c := rfl
  simp only [Sip.bytes, e1, e2]
  cases firstLineBytes c <;> simp [e]

/-- C141 (partial): what `Bytes` returns for a message does not depend on which messages, with the same headers or others, have been
written before: every message carries its own length. -/
theorem C141_wire_partial (U : Unicode) (order : Hdr → Hdr) (M : Maps) (m : Msg) (ms : List (Msg × (Hdr → Hdr))) :
    (m.bytes U order (writeAll U ms M)).1 = (m.bytes U order M).1 := by
  have key : ∀ M' : Maps, (m.bytes U order M').1 = ((m.view M').bytes U order).1 := by
    intro M'
    rw [Msg.bytes]
    cases ha : m.addr with
    | none => rfl
    | some a => cases hs : ((m.view M').bytes U order).2.headers <;> simp [hs]
  rw [key, key]
  cases ha : m.addr with
  | none => rw [show m.view (writeAll U ms M) = m.view M by rw [Msg.view, Msg.view, ha]; rfl]
  | some a =>
    have hv : ∀ M' : Maps, m.view M' = { m.core with headers := some (M'.getD a []) } := by intro M'; rw [Msg.view, ha]; rfl
    rcases (writeAll_maps U a ms M).2 with h | ⟨-, n, h⟩
    · rw [hv, hv, h]
    · rw [hv, hv, h]
      refine bytes_congr U order m.core _ _ ?_
      rw [setContentLength, setContentLength, setContentLength, setFirstHeader, setFirstHeader, setFirstHeader, mset_mset]

theorem getD_own (M : Maps) (b : Nat) : (M ++ [([] : Hdr)]).getD b [] = M.getD b [] := by
  simp only [List.getD_eq_getElem?_getD, List.getElem?_append]
  by_cases hb : b < M.length
  · simp [hb]
  · by_cases hb' : b - M.length = 0
    · simp [hb, hb']
    · simp [hb, hb']

theorem fill_view (M : Maps) (c : Sip) (hc : c.headers = some []) (header : Option Nat) (body : Bytes) :
    (Msg.fill (M ++ [[]]) ⟨some M.length, c⟩ header body).view (M ++ [[]]) = Sip.fill c (header.map fun a => M.getD a []) body ∧
    (Msg.fill (M ++ [[]]) ⟨some M.length, c⟩ header body).addr = if Maps.read M header = [] then some M.length else header := by
  have hr : Maps.read (M ++ [[]]) header = Maps.read M header := by
    cases header with
    | none => rfl
    | some a => exact getD_own M a
  have hg : (header.map fun a => M.getD a []).getD [] = Maps.read M header := by cases header <;> rfl
  have hown : (M ++ [([] : Hdr)]).getD M.length [] = [] := by simp
  simp only [Msg.fill, Sip.fill, hr, hg, List.length_pos_iff, ne_eq]
  by_cases h0 : Maps.read M header = []
  · by_cases hb : body = []
    · simp only [h0, hb, not_true_eq_false, if_false, if_true, Msg.view, Option.map_some, hown]
      exact ⟨by rw [← hc], trivial⟩
    · simp only [h0, hb, not_true_eq_false, not_false_eq_true, if_false, if_true, Msg.view, Option.map_some, hown, Sip.setBody]
      exact ⟨by rw [← hc], trivial⟩
  · have hm : (header.map fun a => (M ++ [([] : Hdr)]).getD a []) = header.map fun a => M.getD a [] := by
      cases header with
      | none => rfl
      | some a => simp only [Option.map_some, getD_own]
    by_cases hb : body = []
    · simp only [h0, hb, not_true_eq_false, not_false_eq_true, if_false, if_true, Msg.view, Msg.setHeader, Sip.setHeader, hm, and_self]
    · simp only [h0, hb, not_false_eq_true, if_false, if_true, Msg.view, Msg.setHeader, Sip.setHeader, Sip.setBody, hm, and_self]

/-- C141 (partial): a message made by `MakeRequest` with the map at `header` (`none`: nil) is the message that the caller described, all
the maps of the program are what they were, and the message has a map of its own if that map is empty. -/
theorem C141_request_partial (M : Maps) (method : UInt16) (request : Option Request) (header : Option Nat) (body : Bytes) :
    let (m, M') := Msg.makeRequest M method request header body
    m.view M' = Sips.makeRequest method request (header.map fun a => M.getD a []) body ∧
    (∀ b, M'.getD b [] = M.getD b []) ∧ M'.length = M.length + 1 ∧
    m.addr = if Maps.read M header = [] then some M.length else header := by
  obtain ⟨h1, h2⟩ := fill_view M { Sip.new with method := method, request := request, version := 2 } rfl header body
  exact ⟨h1, getD_own M, by simp [Msg.makeRequest, Msg.new], h2⟩

/-- The same for `MakeResponse`. -/
theorem C141_response_partial (M : Maps) (code : Int) (header : Option Nat) (body : Bytes) :
    let (m, M') := Msg.makeResponse M code header body
    m.view M' = Sips.makeResponse code (header.map fun a => M.getD a []) body ∧
    (∀ b, M'.getD b [] = M.getD b []) ∧ M'.length = M.length + 1 ∧
    m.addr = if Maps.read M header = [] then some M.length else header := by
  obtain ⟨h1, h2⟩ := fill_view M { Sip.new with isResponse := true, version := 2, responseCode := code } rfl header body
  exact ⟨h1, getD_own M, by simp [Msg.makeResponse, Msg.new], h2⟩

/-- C141: and writing a message does to it what `Bytes` does to a message that shares its map with no other one. -/
theorem C141_write_partial (U : Unicode) (order : Hdr → Hdr) (M : Maps) (m : Msg) (hm : ∀ a, m.addr = some a → a < M.length) :
    (m.bytes U order M).1 = ((m.view M).bytes U order).1 ∧
    m.view (m.bytes U order M).2 = ((m.view M).bytes U order).2 := by
  rw [Msg.bytes]
  cases ha : m.addr with
  | none =>
    have hv : m.view M = { m.core with headers := none } := by rw [Msg.view, ha]; rfl
    refine ⟨by simp, ?_⟩
    simp only [hv, Sip.bytes]
    cases firstLineBytes { m.core with headers := none } <;> rfl
  | some a =>
    have hv : ∀ M : Maps, m.view M = { m.core with headers := some (M.getD a []) } := by intro M; rw [Msg.view, ha]; rfl
    have hs : ∀ h : Hdr, (M.set a h).getD a [] = h := by intro h; rw [getD_set, if_pos ⟨rfl, hm a ha⟩]
    simp only [hv, Sip.bytes]
    cases firstLineBytes { m.core with headers := some (M.getD a []) } <;> simp [-List.getD_eq_getElem?_getD, hs]

/-- A request with the map at address 0, and one with the nil map and a body. -/
example : ((Msg.makeRequest [[(text "call-id", [text "x"])]] 7 none (some 0) []).1.view [[(text "call-id", [text "x"])], []] =
      Sips.makeRequest 7 none (some [(text "call-id", [text "x"])]) []) ∧
    (Msg.makeRequest [[(text "call-id", [text "x"])]] 7 none (some 0) []).1.addr = some 0 ∧
    (Msg.makeResponse [[]] 200 none [1]).1.addr = some 1 :=
  ⟨(C141_request_partial [[(text "call-id", [text "x"])]] 7 none (some 0) []).1,
    (C141_request_partial [[(text "call-id", [text "x"])]] 7 none (some 0) []).2.2.2, (C141_response_partial [[]] 200 none [1]).2.2.2⟩

/-- C141 (partial): writing messages changes no message that has another map, and no header but the content length of a message
that has the same one. -/
theorem C141_headers_partial (U : Unicode) (M : Maps) (m : Msg) (ms : List (Msg × (Hdr → Hdr))) :
    ((∀ x ∈ ms, x.1.addr ≠ m.addr) → m.view (writeAll U ms M) = m.view M) ∧
    ∀ n, (∀ b ∈ n, b < 0x80) → ¬ SameText n (text "content-length") → (∀ e ∈ (m.view M).hdr, e.2 ≠ []) →
      getFirstHeader U (m.view (writeAll U ms M)).hdr n = getFirstHeader U (m.view M).hdr n := by
  cases ha : m.addr with
  | none =>
    have : m.view (writeAll U ms M) = m.view M := by rw [Msg.view, Msg.view, ha]; rfl
    exact ⟨fun _ => this, fun _ _ _ _ => by rw [this]⟩
  | some a =>
    have hv : ∀ M' : Maps, m.view M' = { m.core with headers := some (M'.getD a []) } := by intro M'; rw [Msg.view, ha]; rfl
    refine ⟨fun hx => ?_, fun n hn hc hne => ?_⟩
    · rcases (writeAll_maps U a ms M).2 with h | ⟨⟨x, hx', hxa⟩, -⟩
      · rw [hv, hv, h]
      · exact absurd hxa (hx x hx')
    · rw [hv] at hne
      rw [hv, hv]
      show getFirstHeader U ((writeAll U ms M).getD a []) n = getFirstHeader U (M.getD a []) n
      rcases (writeAll_maps U a ms M).2 with h | ⟨-, k, h⟩
      · rw [h]
      · rw [h, setContentLength]
        exact (C83_set_get U (M.getD a []) b!"content-length" (itoa k) n (by decide) hn).2.2
          (by rw [← show text "content-length" = b!"content-length" from by decide +kernel]; exact hc) hne

/-- C141 fails for the content length: a response made with the headers of a request, as soon as it is written, gives the request
the length of its own body. -/
theorem C141_request_changes_refuted (U : Unicode) (order : Hdr → Hdr) (M : Maps) (a : Nat) (ha : a < M.length) (hne : M.getD a [] ≠ [])
    (code : Int) (body : Bytes) (hbody : body.length < 2 ^ 63) (req : Msg) (hreq : req.addr = some a) :
    let (resp, M1) := Msg.makeResponse M code (some a) body
    let M2 := (resp.bytes U order M1).2
    req.view M1 = req.view M ∧ getContentLength U (req.view M2).hdr = .ok body.length := by
  have hread : (M ++ [[]]).getD a [] = M.getD a [] := by
    simp only [List.getD_eq_getElem?_getD]
    rw [List.getElem?_append_left ha]
  have hmk : Msg.makeResponse M code (some a) body =
      (⟨some a, { Sip.new with isResponse := true, version := 2, responseCode := code, payload := body }⟩, M ++ [[]]) := by
    have hl : (Maps.read (M ++ [[]]) (some a)).length > 0 := by
      rw [Maps.read, hread]
      exact List.length_pos_iff.2 hne
    simp only [Msg.makeResponse, Msg.new, Msg.fill, hl, if_true, Msg.setHeader]
    cases body with
    | nil => rfl
    | cons b body => simp [Sip.setBody]
  rw [hmk]
  have hv1 : req.view (M ++ [[]]) = req.view M := by
    rw [Msg.view, Msg.view, hreq, Option.map_some, Option.map_some, hread]
  refine ⟨hv1, ?_⟩
  have hM2 : ((⟨some a, { Sip.new with isResponse := true, version := 2, responseCode := code, payload := body }⟩ : Msg).bytes U order (M ++ [[]])).2 =
      (M ++ [[]]).set a (setContentLength U (M.getD a []) body.length) := by
    simp only [Msg.bytes, Msg.view, Option.map_some, hread, Sip.bytes, firstLineBytes, if_true]
  have hv2 : (req.view ((M ++ [[]]).set a (setContentLength U (M.getD a []) body.length))).hdr = setContentLength U (M.getD a []) body.length := by
    rw [Msg.view, hreq, Option.map_some, getD_set, if_pos ⟨rfl, by simp; omega⟩]
    rfl
  show getContentLength U (req.view (Msg.bytes U order (M ++ [[]]) _).2).hdr = _
  rw [hM2, hv2, getContentLength, setContentLength,
    (C83_set_get U _ b!"content-length" (itoa body.length) b!"content-length" (by decide) (by decide)).1 rfl]
  exact atoi_itoa (by omega) (by omega)

theorem copy_length (U : Unicode) (dst src : Nat) : ∀ (ns : List Bytes) (M : Maps), (Maps.copy U dst src ns M).length = M.length
  | [], _ => rfl
  | n :: ns, M => by rw [Maps.copy, copy_length U dst src ns, Maps.setFirst, List.length_set]

/-- `CopyFrom` between two maps is what `Model/Sips` says, and changes only the map it copies to. -/
theorem copy_other (U : Unicode) (dst src b : Nat) (h : dst ≠ src) : ∀ (ns : List Bytes) (M : Maps), dst < M.length →
    (Maps.copy U dst src ns M).getD b [] = if dst = b then copyFrom U (M.getD dst []) (M.getD src []) ns else M.getD b []
  | [], M, _ => by
    rw [Maps.copy, copyFrom]
    split
    · next hb => rw [hb]
    · rfl
  | n :: ns, M, hd => by
    have e1 : ∀ c, (Maps.setFirst U M dst n (getFirstHeader U (M.getD src []) n)).getD c [] =
        if dst = c then setFirstHeader U (M.getD dst []) n (getFirstHeader U (M.getD src []) n) else M.getD c [] := by
      intro c
      rw [Maps.setFirst, getD_set]
      simp [hd]
    rw [Maps.copy, copy_other U dst src b h ns _ (by rw [Maps.setFirst, List.length_set]; exact hd), e1 dst, e1 src, e1 b, if_pos rfl, if_neg h, copyFrom]
    by_cases hb : dst = b
    · rw [if_pos hb, if_pos hb]
    · rw [if_neg hb, if_neg hb, if_neg hb]

/-- A server that answers with a map of its own: `CopyFrom` the request's headers, `MakeResponse`, `Bytes`. -/
def answer (U : Unicode) (order : Hdr → Hdr) (M : Maps) (dst src : Nat) (ns : List Bytes) (code : Int) (body : Bytes) : Res Bytes × Maps :=
  let M1 := Maps.copy U dst src ns M
  let (resp, M2) := Msg.makeResponse M1 code (some dst) body
  resp.bytes U order M2

/-- C141 (partial): answering with a map of one's own changes nothing of any message with another map, such as the request. -/
theorem C141_own_map_partial (U : Unicode) (order : Hdr → Hdr) (M : Maps) (dst src : Nat) (hd : dst < M.length) (hne : dst ≠ src) (ns : List Bytes)
    (code : Int) (body : Bytes) (req : Msg) (hreq : req.addr ≠ some dst) (hok : ∀ a, req.addr = some a → a < M.length) :
    req.view (answer U order M dst src ns code body).2 = req.view M := by
  cases ha : req.addr with
  | none => rw [Msg.view, Msg.view, ha]; rfl
  | some a =>
    have hal := hok a ha
    have had : dst ≠ a := fun h => hreq (by rw [ha, h])
    suffices h : (answer U order M dst src ns code body).2.getD a [] = M.getD a [] by
      rw [Msg.view, Msg.view, ha, Option.map_some, Option.map_some, h]
    have h1 : (Maps.copy U dst src ns M).getD a [] = M.getD a [] := by
      rw [copy_other U dst src a hne ns M hd, if_neg had]
    have h2 : ((Maps.copy U dst src ns M) ++ [[]]).getD a [] = M.getD a [] := by
      rw [← h1]
      simp only [List.getD_eq_getElem?_getD]
      rw [List.getElem?_append_left (by rw [copy_length]; exact hal)]
    have hmk : (Msg.makeResponse (Maps.copy U dst src ns M) code (some dst) body).2 = Maps.copy U dst src ns M ++ [[]] := rfl
    have had' : (Msg.makeResponse (Maps.copy U dst src ns M) code (some dst) body).1.addr ≠ some a := by
      have : ∀ (M' : Maps) (m : Msg) (h : Option Nat) (b : Bytes), (Msg.fill M' m h b).addr = m.addr ∨ (Msg.fill M' m h b).addr = h := by
        intro M' m h b
        simp only [Msg.fill, Msg.setHeader]
        split <;> split <;> simp
      rcases this (Maps.copy U dst src ns M ++ [[]]) _ (some dst) body with h | h
      · intro hx
        have hx := h.symm.trans hx
        simp only [Msg.new, Option.some.injEq, copy_length] at hx
        omega
      · intro hx
        have hx := h.symm.trans hx
        simp only [Option.some.injEq] at hx
        exact had hx
    rw [← h2]
    rcases (bytes_maps U order _ (Msg.makeResponse (Maps.copy U dst src ns M) code (some dst) body).1 a).2 with h | ⟨h, -⟩
    · exact h
    · exact absurd h had'

/-- C141: `CopyFrom` gives the named headers the value of the source also when source and destination are the same map. -/
theorem C141_copy_self (U : Unicode) (a : Nat) (n : Bytes) (hn : ∀ b ∈ n, b < 0x80) : ∀ (ns : List Bytes) (M : Maps), (∀ n ∈ ns, ∀ b ∈ n, b < 0x80) →
    (∀ e ∈ M.getD a [], e.2 ≠ []) →
    getFirstHeader U ((Maps.copy U a a ns M).getD a []) n = getFirstHeader U (M.getD a []) n
  | [], _, _, _ => rfl
  | k :: ns, M, hk, hne => by
    have hg : (Maps.setFirst U M a k (getFirstHeader U (M.getD a []) k)).getD a [] =
        if a < M.length then setFirstHeader U (M.getD a []) k (getFirstHeader U (M.getD a []) k) else M.getD a [] := by
      rw [Maps.setFirst, getD_set]
      simp
    rw [Maps.copy, C141_copy_self U a n hn ns _ (fun x hx => hk x (by simp [hx])) (by
      rw [hg]
      split
      · exact set_nonempty U hne _ _
      · exact hne), hg]
    split
    · obtain ⟨g1, -, g3⟩ := C83_set_get U (M.getD a []) k (getFirstHeader U (M.getD a []) k) n (hk k (by simp)) hn
      by_cases hs : SameText n k
      · rw [g1 hs, (C79_any_case U _ n k hn (hk k (by simp)) hs).1]
      · exact g3 hs hne
    · rfl

/-- The store of the examples: the headers of a received request, and a map to answer with. -/
def someMaps : Maps := [[(text "via", [text "SIP/2.0/UDP a:5060"]), (text "cseq", [text "4 MESSAGE"]), (text "content-length", [text "77"])], []]

/-- A request with the first of the maps. -/
def someReq : Msg := ⟨some 0, { Sip.new with method := 3, version := 2 }⟩

/-- Before: 77 bytes.  After a response of two bytes with the same headers: 2. -/
example (U : Unicode) : getContentLength U (someReq.view someMaps).hdr = .ok 77 ∧
    getContentLength U (someReq.view ((Msg.makeResponse someMaps 200 (some 0) (text "ok")).1.bytes U id (someMaps ++ [[]])).2).hdr = .ok 2 :=
  ⟨by
    rw [getContentLength, (C79_lookup_partial U _ (by decide +kernel) (text "content-length") _ (text "77") [] (by decide +kernel) (by decide)
      (by simp only [SameText]; decide +kernel) (by simp [someReq, Msg.view, someMaps, Sip.hdr])).1]
    decide +kernel,
  by
    have := (C141_request_changes_refuted U id someMaps 0 (by decide) (by decide +kernel) 200 (text "ok") (by decide +kernel) someReq rfl).2
    rw [show ((text "ok").length : Int) = 2 from by decide +kernel] at this
    exact this⟩

example (U : Unicode) : someReq.view (answer U id someMaps 1 0 [text "Via", text "CSeq"] 200 (text "ok")).2 = someReq.view someMaps :=
  C141_own_map_partial U id someMaps 1 0 (by decide) (by decide) _ 200 _ someReq (by simp [someReq]) (by simp [someReq, someMaps])

example (U : Unicode) (m : Msg) : (m.bytes U id (writeAll U [(someReq, id), (someReq, List.reverse)] someMaps)).1 = (m.bytes U id someMaps).1 :=
  C141_wire_partial U id someMaps m _

example (U : Unicode) : getFirstHeader U (someReq.view (writeAll U [(someReq, id)] someMaps)).hdr (text "Via") =
    getFirstHeader U (someReq.view someMaps).hdr (text "Via") :=
  (C141_headers_partial U someMaps someReq _).2 _ (by decide +kernel) (by simp only [SameText]; decide +kernel)
    (by simp [someReq, Msg.view, someMaps, Sip.hdr])

example (U : Unicode) : getFirstHeader U ((Maps.copy U 0 0 [text "Via"] someMaps).getD 0 []) (text "via") =
    getFirstHeader U (someMaps.getD 0 []) (text "via") :=
  C141_copy_self U 0 _ (by decide +kernel) _ _ (by decide +kernel) (by simp [someMaps])

/-! ## C142 -/

theorem lower_name {n : Bytes} (hn : n ≠ [] ∧ ∀ b ∈ n, 0x21 ≤ b ∧ b ≤ 0x7e ∧ b ≠ 0x3a) : HeaderName (n.map lowerAscii) := by
  refine ⟨by simp [hn.1], fun b hb => ?_⟩
  obtain ⟨c, hc, rfl⟩ := List.mem_map.1 hb
  have := hn.2 c hc
  revert this
  have : ∀ n : Fin 256, 0x21 ≤ UInt8.ofNat n.1 ∧ UInt8.ofNat n.1 ≤ 0x7e ∧ UInt8.ofNat n.1 ≠ 0x3a → 0x21 ≤ lowerAscii (UInt8.ofNat n.1) ∧ lowerAscii (UInt8.ofNat n.1) ≤ 0x7e ∧
      lowerAscii (UInt8.ofNat n.1) ≠ 0x3a ∧ ¬ (0x41 ≤ lowerAscii (UInt8.ofNat n.1) ∧ lowerAscii (UInt8.ofNat n.1) ≤ 0x5a) := by decide +kernel
  have h := this ⟨c.toNat, c.toNat_lt⟩
  simpa using h

theorem lower_lower (n : Bytes) : (n.map lowerAscii).map lowerAscii = n.map lowerAscii := by
  rw [List.map_map]
  refine List.map_congr_left fun c _ => ?_
  have : ∀ n : Fin 256, lowerAscii (lowerAscii (UInt8.ofNat n.1)) = lowerAscii (UInt8.ofNat n.1) := by decide +kernel
  simpa using this ⟨c.toNat, c.toNat_lt⟩

/-- A value in several lines is a value in one line. -/
theorem den_value {f : HField} (h : f.Fits) : HeaderValue f.den := by
  have hc : ∀ b ∈ f.den, b ≠ 13 ∧ b ≠ 10 := by
    intro b hb
    rw [HField.den, List.mem_append, List.mem_flatten] at hb
    rcases hb with hb | ⟨l, hl, hb⟩
    · exact h.value.chars b hb
    · obtain ⟨c, hc, rfl⟩ := List.mem_map.1 hl
      rcases List.mem_cons.1 hb with rfl | hb
      · decide
      · exact (h.conts c hc).text.2 b hb
  by_cases hn : f.conts = []
  · rw [show f.den = f.value by rw [HField.den, hn]; simp]
    exact h.value
  · have hv := h.nonempty hn
    refine ⟨hc, ?_, ?_⟩
    · rw [HField.den]
      cases hf : f.value with
      | nil => exact absurd hf hv
      | cons a t =>
        have := h.value.first
        rw [hf] at this
        simpa using this
    · obtain ⟨cs, c, hcs⟩ : ∃ cs c, f.conts = cs ++ [c] := by
        rcases List.eq_nil_or_concat f.conts with h | ⟨cs, c, h⟩
        · exact absurd h hn
        · exact ⟨cs, c, by simpa using h⟩
      have hcf := h.conts c (by rw [hcs]; simp)
      rw [HField.den, hcs, List.map_append, List.flatten_append, List.map_cons, List.map_nil, List.flatten_cons, List.flatten_nil, List.append_nil]
      cases ht : c.text.getLast? with
      | none => exact absurd (List.getLast?_eq_none_iff.1 ht) hcf.text.1
      | some b =>
        have hb := hcf.last b ht
        rw [List.getLast?_append, List.getLast?_append, List.getLast?_cons, ht]
        simp only [Option.getD_some, Option.some_or]
        rintro e
        simp only [Option.some.injEq] at e
        rw [e] at hb
        exact absurd hb.1 (by decide)

/-- `CopyFrom` into an empty map. -/
theorem copyFrom_new (U : Unicode) (src : Hdr) : ∀ (ns : List Bytes) (h : Hdr), (∀ n ∈ ns, ∀ b ∈ n, b < 0x80) →
    ((h.map Prod.fst) ++ ns.map fun n => n.map lowerAscii).Nodup →
    copyFrom U h src ns = h ++ ns.map fun n => (n.map lowerAscii, [getFirstHeader U src n])
  | [], h, _, _ => by simp [copyFrom]
  | n :: ns, h, ha, hd => by
    have hl : toLower U n = n.map lowerAscii := toLower_ascii U (ha n (by simp))
    rw [copyFrom, setFirstHeader, hl, mset_fresh _ _ _ (by
      intro hm
      rw [List.nodup_append] at hd
      exact hd.2.2 _ hm _ (by simp) rfl),
      copyFrom_new U src ns _ (fun x hx => ha x (by simp [hx])) (by simpa using hd)]
    simp

/-- C142 (partial): a response whose headers are copied by `CopyFrom` from a request that was received and parsed, under any names in
any letter case, arrives with the values of the request under these names, and with its addresses, via and sequence number.
(Missing: headers that occur several times, see `C142_first_via_refuted`; names sent in compact form, C79.) -/
theorem C142_answer_partial (U : Unicode) (order : Hdr → Hdr) (ho : ∀ x, (order x).Perm x) (req : Sip) (fs : List HField)
    (hreq : Received U req fs) (size : Nat) (hacc : Acceptable size fs) (ns : List Bytes)
    (hns : ∀ n ∈ ns, n ≠ [] ∧ ∀ b ∈ n, 0x21 ≤ b ∧ b ≤ 0x7e ∧ b ≠ 0x3a) (hd : (ns.map fun n => n.map lowerAscii).Nodup)
    (hshort : ∀ n ∈ ns, ∀ v ∈ fieldValues fs n, n.length + v.length + 4 ≤ 4096) (hlen : ∀ n ∈ ns, n.length + 4 ≤ 4096)
    (code : Int) (hc1 : -2 ^ 63 ≤ code) (hc2 : code < 2 ^ 63) (body : Bytes) (hbody : body.length < 2 ^ 63) :
    ∃ w m, ((makeResponse code (some (copyFrom U [] req.hdr ns)) body).bytes U order).1 = .ok w ∧
      parseBytes U Sip.new w = (.ok (), m) ∧ m.isResponse = true ∧ m.responseCode = code ∧
      (∀ n ∈ ns, ¬ SameText n (text "content-length") → getHeader U m.hdr n = [(fieldValues fs n).head?.getD []] ∧
        getFirstHeader U m.hdr n = (fieldValues fs n).head?.getD []) ∧
      (text "from" ∈ ns.map (fun n => n.map lowerAscii) → m.fromU = req.fromU) ∧ (text "to" ∈ ns.map (fun n => n.map lowerAscii) → m.toU = req.toU) ∧
      (text "contact" ∈ ns.map (fun n => n.map lowerAscii) → m.contact = req.contact) ∧ (text "via" ∈ ns.map (fun n => n.map lowerAscii) → m.via = req.via) ∧
      (text "cseq" ∈ ns.map (fun n => n.map lowerAscii) → m.cseq = req.cseq) := by
  have hascii : ∀ n ∈ ns, ∀ b ∈ n, b < 0x80 := by
    intro n hn b hb
    have := ((hns n hn).2 b hb).2.1
    rw [UInt8.le_iff_toNat_le] at this
    rw [UInt8.lt_iff_toNat_lt]
    simp at this ⊢
    omega
  have hden : ∀ f ∈ fs, HeaderValue f.den := fun f hf => den_value (hacc.fits f hf)
  have hval : ∀ n, HeaderValue ((fieldValues fs n).head?.getD []) := by
    intro n
    cases hv : (fieldValues fs n).head? with
    | none => exact ⟨by simp, by simp, by simp⟩
    | some v =>
      have := List.mem_of_mem_head? hv
      rw [fieldValues] at this
      obtain ⟨f, hf, rfl⟩ := List.mem_map.1 this
      exact hden f (List.mem_filter.1 hf).1
  have hcopy := copyFrom_new U req.hdr ns [] hascii (by simpa using hd)
  rw [List.nil_append] at hcopy
  let hs : List (Bytes × Bytes) := ns.map fun n => (n.map lowerAscii, (fieldValues fs n).head?.getD [])
  have hcopy' : copyFrom U [] req.hdr ns = hs.map fun e => (e.1, [e.2]) := by
    rw [hcopy]
    simp only [hs, List.map_map]
    refine List.map_congr_left fun n hn => ?_
    simp only [Function.comp]
    rw [hreq.first n (hascii n hn)]
  have hfv : ∀ n k : Bytes, n.map lowerAscii = k → k.map lowerAscii = k → fieldValues fs n = fieldValues fs k := by
    intro n k h1 h2
    rw [fieldValues, fieldValues, h1, h2]
  have hok : HeadersOk hs := by
    refine ⟨?_, ?_, ?_, ?_, ?_⟩
    · simpa [hs, List.map_map, Function.comp_def] using hd
    · intro e he
      obtain ⟨n, hn, rfl⟩ := List.mem_map.1 he
      exact lower_name (hns n hn)
    · intro e he
      obtain ⟨n, hn, rfl⟩ := List.mem_map.1 he
      exact hval n
    · intro e he
      obtain ⟨n, hn, rfl⟩ := List.mem_map.1 he
      simp only [List.length_map]
      cases hv : (fieldValues fs n).head? with
      | none => simpa using hlen n hn
      | some v => exact hshort n hn v (List.mem_of_mem_head? hv)
    · intro e he hx
      obtain ⟨n, hn, rfl⟩ := List.mem_map.1 he
      simp only at hx ⊢
      have hmem : n.map lowerAscii ∈ [text "from", text "to", text "contact", text "via"] := by
        rcases hx with h | h | h | h <;> rw [h] <;> simp
      have hlow : ∀ k ∈ [text "from", text "to", text "contact", text "via"], k.map lowerAscii = k := by decide +kernel
      rw [hfv n _ rfl (hlow _ hmem)]
      cases hv : (fieldValues fs (n.map lowerAscii)).head? with
      | none => intro x r h; simp at h
      | some v => exact hacc.addresses _ hmem v hv
  obtain ⟨w, m, g1, g2, g3, g4, -, -, g5⟩ := C80_response_partial U order ho code hc1 hc2 hs hok body hbody
  rw [← hcopy'] at g1
  have hin : ∀ k : Bytes, k.map lowerAscii = k → k ∈ ns.map (fun n => n.map lowerAscii) → (k, (fieldValues fs k).head?.getD []) ∈ hs := by
    intro k hk hm
    obtain ⟨n, hn, h⟩ := List.mem_map.1 hm
    refine List.mem_map.2 ⟨n, hn, ?_⟩
    rw [h, hfv n k h hk]
  refine ⟨w, m, g1, g2, g3, g4, ?_, ?_, ?_, ?_, ?_, ?_⟩
  · intro n hn hcl
    obtain ⟨d, -, hnod, hmem⟩ := g5.headers
    have he : (n.map lowerAscii, [(fieldValues fs n).head?.getD []]) ∈ m.hdr := by
      refine (hmem _).2 (.inr ⟨?_, _, rfl, List.mem_map.2 ⟨n, hn, rfl⟩⟩)
      intro h
      have h : n.map lowerAscii = text "content-length" := h
      refine hcl ?_
      rw [SameText, h]
      decide +kernel
    obtain ⟨k1, k2⟩ := C79_lookup_partial U m.hdr hnod (n.map lowerAscii) n _ [] (lower_lower n) (hascii n hn)
      (by rw [SameText, lower_lower]) he
    exact ⟨k2, k1⟩
  · intro h
    obtain ⟨u, hu, h1⟩ := g5.from_ _ (hin _ (by decide +kernel) h)
    obtain ⟨u', hu', h2⟩ := hreq.from_
    rw [hu] at hu'
    simp only [Res.ok.injEq] at hu'
    rw [h1, h2, hu']
  · intro h
    obtain ⟨u, hu, h1⟩ := g5.to_ _ (hin _ (by decide +kernel) h)
    obtain ⟨u', hu', h2⟩ := hreq.to_
    rw [hu] at hu'
    simp only [Res.ok.injEq] at hu'
    rw [h1, h2, hu']
  · intro h
    obtain ⟨u, hu, h1⟩ := g5.contact _ (hin _ (by decide +kernel) h)
    obtain ⟨u', hu', h2⟩ := hreq.contact
    rw [hu] at hu'
    simp only [Res.ok.injEq] at hu'
    rw [h1, h2, hu']
  · intro h
    obtain ⟨u, hu, h1⟩ := g5.via _ (hin _ (by decide +kernel) h)
    obtain ⟨u', hu', h2⟩ := hreq.via
    rw [hu] at hu'
    simp only [Res.ok.injEq] at hu'
    rw [h1, h2, hu']
  · intro h
    rw [g5.cseq _ (hin _ (by decide +kernel) h), hreq.cseq]

/-- C142 fails for headers that occur several times: only the first `Via` of a request that has passed a proxy is in the answer, so
the answer does not find its way back.  (The map of the request itself cannot be used either: its values end up in one line, C103.) -/
theorem C142_first_via_refuted (U : Unicode) (order : Hdr → Hdr) (ho : ∀ x, (order x).Perm x) (req : Sip) (fs : List HField)
    (hreq : Received U req fs) (size : Nat) (hacc : Acceptable size fs) (ns : List Bytes)
    (hns : ∀ n ∈ ns, n ≠ [] ∧ ∀ b ∈ n, 0x21 ≤ b ∧ b ≤ 0x7e ∧ b ≠ 0x3a) (hd : (ns.map fun n => n.map lowerAscii).Nodup)
    (hshort : ∀ n ∈ ns, ∀ v ∈ fieldValues fs n, n.length + v.length + 4 ≤ 4096) (hlen : ∀ n ∈ ns, n.length + 4 ≤ 4096)
    (code : Int) (hc1 : -2 ^ 63 ≤ code) (hc2 : code < 2 ^ 63) (body : Bytes) (hbody : body.length < 2 ^ 63)
    (hvia : text "via" ∈ ns) (hmany : 2 ≤ (fieldValues fs (text "via")).length) (w : Bytes) (m : Sip)
    (hw : ((makeResponse code (some (copyFrom U [] req.hdr ns)) body).bytes U order).1 = .ok w) (hp : parseBytes U Sip.new w = (.ok (), m)) :
    (getHeader U m.hdr (text "via")).length = 1 ∧ getHeader U m.hdr (text "via") ≠ fieldValues fs (text "via") := by
  obtain ⟨w', m', h1, h2, -, -, h3, -⟩ := C142_answer_partial U order ho req fs hreq size hacc ns hns hd hshort hlen code hc1 hc2 body hbody
  rw [h1] at hw
  simp only [Res.ok.injEq] at hw
  rw [← hw, h2] at hp
  simp only [Prod.mk.injEq, true_and] at hp
  rw [← hp, (h3 _ hvia (by simp only [SameText]; decide +kernel)).1]
  refine ⟨rfl, fun h => ?_⟩
  rw [← h] at hmany
  simp at hmany

/-- A BYE that has passed a proxy, its answer, and the only `Via` in the answer. -/
example (U : Unicode) : ∃ req w m, Received U req someFields ∧
    ((makeResponse 200 (some (copyFrom U [] req.hdr [text "via", text "From", text "CALL-ID", text "cseq"])) []).bytes U id).1 = .ok w ∧
    parseBytes U Sip.new w = (.ok (), m) ∧ m.fromU = req.fromU ∧ m.via = req.via ∧ m.cseq = req.cseq ∧
    getHeader U m.hdr (text "v" ++ text "ia") = [text "SIP/2.0/UDP pc33.atlanta.com:5060;branch=z9hG4bK776"] ∧
    getHeader U m.hdr (text "via") ≠ fieldValues someFields (text "via") := by
  have h := C101_peer_request U 4096 (by decide) (someWire (text "bye sip:a@b SIP/2.0")) (3, "BYE") (by decide) (text "bye")
    (by simp only [SameText]; decide +kernel) (by decide +kernel) ⟨text "sip", text "a", text "b", [], []⟩ (text "sip:a@b") (by decide +kernel)
    (by decide +kernel) (2, "SIP/2.0") (by decide) (text "SIP/2.0") rfl (by decide +kernel) true true someFields someFields_ok
    (text "abcd") (by decide +kernel) (by decide +kernel)
  obtain ⟨req, r', -, -, -, -, -, hreq⟩ := h
  have n1 : ∀ n ∈ [text "via", text "From", text "CALL-ID", text "cseq"], n ≠ [] ∧ ∀ b ∈ n, 0x21 ≤ b ∧ b ≤ 0x7e ∧ b ≠ 0x3a := by decide +kernel
  have n2 : ([text "via", text "From", text "CALL-ID", text "cseq"].map fun n => n.map lowerAscii).Nodup := by decide +kernel
  have n3 : ∀ n ∈ [text "via", text "From", text "CALL-ID", text "cseq"], ∀ v ∈ fieldValues someFields n, n.length + v.length + 4 ≤ 4096 := by decide +kernel
  have n4 : ∀ n ∈ [text "via", text "From", text "CALL-ID", text "cseq"], n.length + 4 ≤ 4096 := by decide +kernel
  obtain ⟨w, m, h1, h2, -, -, h3, h4, -, -, h5, h6⟩ := C142_answer_partial U id (fun x => List.Perm.refl x) req someFields hreq 4096 someFields_ok _ n1 n2 n3 n4
    200 (by decide) (by decide) [] (by decide)
  have h7 := C142_first_via_refuted U id (fun x => List.Perm.refl x) req someFields hreq 4096 someFields_ok _ n1 n2 n3 n4
    200 (by decide) (by decide) [] (by decide) (by simp) (by decide +kernel) w m h1 h2
  refine ⟨req, w, m, hreq, h1, h2, h4 (by decide +kernel), h5 (by decide +kernel), h6 (by decide +kernel), ?_, h7.2⟩
  rw [show text "v" ++ text "ia" = text "via" from by decide +kernel, (h3 (text "via") (by simp) (by simp only [SameText]; decide +kernel)).1]
  decide +kernel

end Verif.Props
