import Verif.Spec.SipsArgs
import Verif.Props.SipsMap
/-!
# Property C157: an address made from another one is independent of it
-/
namespace Verif.Props
open Verif Verif.Str Verif.Sips Verif.Spec.Sips

theorem argCalls_length : ∀ (cs : List (Nat × ArgCall)) (M : ArgMaps), (ArgCall.run cs M).length = M.length
  | [], _ => rfl
  | (a, .set k v) :: cs, M => by rw [ArgCall.run, argCalls_length cs, ArgMaps.setAt, List.length_set]
  | (a, .del k) :: cs, M => by rw [ArgCall.run, argCalls_length cs, ArgMaps.delAt, List.length_set]

theorem argCalls_other (x : Nat) : ∀ (cs : List (Nat × ArgCall)) (M : ArgMaps), (∀ c ∈ cs, c.1 ≠ x) → (ArgCall.run cs M).getD x [] = M.getD x []
  | [], _, _ => rfl
  | (a, .set k v) :: cs, M, h => by
    rw [ArgCall.run, argCalls_other x cs _ fun c hc => h c (by simp [hc]), ArgMaps.setAt, List.getD_eq_getElem?_getD,
      List.getElem?_set_ne (show a ≠ x from h _ List.mem_cons_self), List.getD_eq_getElem?_getD]
  | (a, .del k) :: cs, M, h => by
    rw [ArgCall.run, argCalls_other x cs _ fun c hc => h c (by simp [hc]), ArgMaps.delAt, List.getD_eq_getElem?_getD,
      List.getElem?_set_ne (show a ≠ x from h _ List.mem_cons_self), List.getD_eq_getElem?_getD]

theorem setAt_getD (M : ArgMaps) (a : Nat) (ha : a < M.length) (k v : Bytes) : (M.setAt a k v).getD a [] = (M.getD a []).set k v := by
  rw [ArgMaps.setAt, List.getD_eq_getElem?_getD, List.getElem?_set_self ha]
  rfl

/-- C157 (partial): whatever is called through other objects, an address and a request URI with another argument map stay as they are;
and whatever is called, only the arguments can change.  Missing: objects made by `ToUser` and `ToRequest`, which have the map of
their origin (`C157_to_user_refuted`, `C157_to_request_refuted`). -/
theorem C157_apart_partial (M : ArgMaps) (cs : List (Nat × ArgCall)) (u : UserAt) (r : RequestAt) :
    ((∀ c ∈ cs, c.1 ≠ u.addr) → u.view (ArgCall.run cs M) = u.view M) ∧
    ((∀ c ∈ cs, c.1 ≠ r.addr) → r.view (ArgCall.run cs M) = r.view M) ∧
    (∃ a, u.view (ArgCall.run cs M) = { u.view M with args := a }) ∧ ∃ a, r.view (ArgCall.run cs M) = { r.view M with args := a } := by
  refine ⟨fun h => ?_, fun h => ?_, ⟨_, rfl⟩, ⟨_, rfl⟩⟩
  · rw [UserAt.view, UserAt.view, argCalls_other u.addr cs M h]
  · rw [RequestAt.view, RequestAt.view, argCalls_other r.addr cs M h]

/-- C157 (partial): what is parsed from text, for instance from the text of another address, is what the text says, has a map of its
own and changes no other object; whatever is called through it, or through the others, the other side stays as it is. -/
theorem C157_parsed_partial (M : ArgMaps) (uri : Bytes) (r : Request) (hr : newSIPRequest uri = .ok r) (u : UserAt) (hu : u.addr < M.length)
    (cs ds : List (Nat × ArgCall)) :
    ∃ x M', RequestAt.new M uri = .ok (x, M') ∧ x.view M' = r ∧ u.view M' = u.view M ∧ x.addr ≠ u.addr ∧
      ((∀ c ∈ cs, c.1 = x.addr) → u.view (ArgCall.run cs M') = u.view M) ∧
      ((∀ c ∈ ds, c.1 = u.addr) → x.view (ArgCall.run ds M') = r) := by
  refine ⟨⟨M.length, r⟩, M ++ [r.args], ?_, ?_, ?_, ?_, fun h => ?_, fun h => ?_⟩
  · rw [RequestAt.new, hr]
    rfl
  · simp [RequestAt.view]
  · simp [UserAt.view, List.getD_eq_getElem?_getD, List.getElem?_append_left hu]
  · exact fun h => absurd hu (by simp [← h])
  · rw [UserAt.view, argCalls_other u.addr cs _ fun c hc => by rw [h c hc]; exact fun h => absurd hu (by simp [← h])]
    simp [UserAt.view, List.getD_eq_getElem?_getD, List.getElem?_append_left hu]
  · rw [RequestAt.view, argCalls_other _ ds _ fun c hc => by rw [h c hc]; exact fun h => absurd hu (by rw [h]; simp)]
    simp

/-- The same for addresses. -/
theorem C157_parsed_user_partial (M : ArgMaps) (uri : Bytes) (w : User) (hw : newSIPUser uri = .ok w) (r : RequestAt) (hr : r.addr < M.length)
    (cs ds : List (Nat × ArgCall)) :
    ∃ x M', UserAt.new M uri = .ok (x, M') ∧ x.view M' = w ∧ r.view M' = r.view M ∧ x.addr ≠ r.addr ∧
      ((∀ c ∈ cs, c.1 = x.addr) → r.view (ArgCall.run cs M') = r.view M) ∧
      ((∀ c ∈ ds, c.1 = r.addr) → x.view (ArgCall.run ds M') = w) := by
  refine ⟨⟨M.length, w⟩, M ++ [w.args], ?_, ?_, ?_, ?_, fun h => ?_, fun h => ?_⟩
  · rw [UserAt.new, hw]
    rfl
  · simp [UserAt.view]
  · simp [RequestAt.view, List.getD_eq_getElem?_getD, List.getElem?_append_left hr]
  · exact fun h => absurd hr (by simp [← h])
  · rw [RequestAt.view, argCalls_other r.addr cs _ fun c hc => by rw [h c hc]; exact fun h => absurd hr (by simp [← h])]
    simp [RequestAt.view, List.getD_eq_getElem?_getD, List.getElem?_append_left hr]
  · rw [UserAt.view, argCalls_other _ ds _ fun c hc => by rw [h c hc]; exact fun h => absurd hr (by rw [h]; simp)]
    simp

/-- C157 (partial): a call does to its own object what it says, and nothing else. -/
theorem C157_effect_partial (M : ArgMaps) (u : UserAt) (hu : u.addr < M.length) (k v q : Bytes) :
    (u.view (ArgCall.run [(u.addr, .set k v)] M)).args.get q = (if q = k then v else (u.view M).args.get q) ∧
    (u.view (ArgCall.run [(u.addr, .del k)] M)).args.get q = (if q = k then [] else (u.view M).args.get q) ∧
    u.toRequest.view M = (u.view M).toRequest := by
  refine ⟨?_, ?_, rfl⟩
  · show Args.get ((M.setAt u.addr k v).getD u.addr []) q = _
    rw [setAt_getD M u.addr hu k v, (C122_set_get_del _ k v q).1]
    rfl
  · show Args.get ((M.delAt u.addr k).getD u.addr []) q = _
    rw [ArgMaps.delAt, List.getD_eq_getElem?_getD, List.getElem?_set_self hu]
    show Args.get ((M.getD u.addr []).del k) q = _
    rw [(C122_set_get_del _ k [] q).2.1]
    rfl

theorem argMap_set {a : Args} (h : ArgMap a) {k v : Bytes} (hk : ArgKey k) (hv : ArgText v) : ArgMap (a.set k v) := by
  refine ⟨mset_keys_nodup k v h.distinct, fun e he => ?_, fun e he => ?_⟩
  · rcases (mem_mset_iff _ _ _ _).1 he with rfl | ⟨he, -⟩
    · exact hk
    · exact h.keys e he
  · rcases (mem_mset_iff _ _ _ _).1 he with rfl | ⟨he, -⟩
    · exact hv
    · exact h.values e he

/-- C157 fails for every request URI: an argument set in the address that `ToUser` returned, such as a tag, is an argument of the URI
as well, and the receiver of the request finds it in the request line. -/
theorem C157_to_user_refuted (M : ArgMaps) (r : RequestAt) (hr : r.addr < M.length) (k v : Bytes) (hne : (r.view M).args.get k ≠ v) :
    let M' := ArgCall.run [(r.toUser.addr, .set k v)] M
    r.toUser.view M = (r.view M).toUser ∧ r.view M' ≠ r.view M ∧
    ∀ (o : Args), o.Perm (r.view M').args →
      (r.core.uriType = text "sip" ∨ r.core.uriType = text "sips" ∨ r.core.uriType = text "tel") →
      (∀ b ∈ r.core.user, b ≠ 0x40 ∧ b ≠ 0x3b) → (∀ b ∈ r.core.host, b ≠ 0x3a ∧ b ≠ 0x3b) → (∀ b ∈ r.core.port, b ≠ 0x3b) →
      ArgMap (r.view M).args → ArgKey k → ArgText v →
      ∃ q, newSIPRequest { r.view M' with args := o }.bytes = .ok q ∧ q.args.get k = v ∧ q.user = r.core.user ∧ q.host = r.core.host := by
  intro M'
  have hv : (r.view M').args = (r.view M).args.set k v := setAt_getD M r.addr hr k v
  refine ⟨rfl, fun h => hne ?_, fun o ho ht hu hh hp ha hk hva => ?_⟩
  · rw [← h, hv, (C122_set_get_del _ k v k).1, if_pos rfl]
  · have hm := argMap_set ha hk hva
    rw [← hv] at hm
    obtain ⟨a, h1, h2⟩ := C72_request_round_trip (r.view M') o ho ht hu hh hp hm
    refine ⟨_, h1, ?_, rfl, rfl⟩
    show Args.get a k = v
    rw [Args.get, mget_perm hm.distinct h2, hv, ← Args.get, (C122_set_get_del _ k v k).1, if_pos rfl]

/-- The same for `ToRequest`: an argument set in the request URI made from an address, such as a transport, is found in the From, To or
Contact header written from the address. -/
theorem C157_to_request_refuted (U : Unicode) (M : ArgMaps) (u : UserAt) (hu : u.addr < M.length) (k v : Bytes) (hne : (u.view M).args.get k ≠ v) :
    let M' := ArgCall.run [(u.toRequest.addr, .set k v)] M
    u.toRequest.view M = (u.view M).toRequest ∧ u.view M' ≠ u.view M ∧
    ∀ (o : Args), o.Perm (u.view M').args →
      (u.core.uriType = text "sip" ∨ u.core.uriType = text "sips" ∨ u.core.uriType = text "tel") →
      (∀ b ∈ u.core.name, b < 0x80 ∧ b ≠ 0x3a ∧ b ≠ 0x3b) →
      (∀ b ∈ u.core.user, b ≠ 0x20 ∧ b ≠ 0x3b ∧ b ≠ 0x3e ∧ b ≠ 0x40) → (∀ b ∈ u.core.host, b ≠ 0x20 ∧ b ≠ 0x3a ∧ b ≠ 0x3b ∧ b ≠ 0x3e) →
      (∀ b ∈ u.core.port, b ≠ 0x20 ∧ b ≠ 0x3b ∧ b ≠ 0x3e) →
      ArgMap (u.view M).args → ArgKey k → ArgText v →
      ∃ q, newSIPUser ({ u.view M' with args := o }.bytes U) = .ok q ∧ q.args.get k = v ∧ q.user = u.core.user ∧ q.host = u.core.host := by
  intro M'
  have hv : (u.view M').args = (u.view M).args.set k v := setAt_getD M u.addr hu k v
  refine ⟨rfl, fun h => hne ?_, fun o ho ht hn hu hh hp ha hk hva => ?_⟩
  · rw [← h, hv, (C122_set_get_del _ k v k).1, if_pos rfl]
  · have hm := argMap_set ha hk hva
    rw [← hv] at hm
    obtain ⟨a, h1, h2⟩ := C74_user_round_trip U (u.view M') o ho ht hn hu hh hp hm
    refine ⟨_, h1, ?_, rfl, rfl⟩
    show Args.get a k = v
    rw [Args.get, mget_perm hm.distinct h2, hv, ← Args.get, (C122_set_get_del _ k v k).1, if_pos rfl]

/-! A program with the map of a request URI and that of a Contact address. -/

def twoArgMaps : ArgMaps := [someArgs, [(text "expires", text "60")]]
def someRequestAt : RequestAt := ⟨0, someRequest⟩
def someUserAt : UserAt := ⟨1, someUser⟩

example := C157_apart_partial twoArgMaps [(0, .set (text "tag") (text "x")), (0, .del (text "lr"))] someUserAt someRequestAt
example : ∀ c ∈ [((0 : Nat), ArgCall.set (text "tag") (text "x")), (0, .del (text "lr"))], c.1 ≠ someUserAt.addr := by simp [someUserAt]

example : newSIPRequest (text "sip:a@b") = .ok ⟨text "sip", text "a", text "b", [], []⟩ := by decide +kernel
example := C157_parsed_partial twoArgMaps (text "sip:a@b") ⟨text "sip", text "a", text "b", [], []⟩ (by decide +kernel) someUserAt (by decide)
  [(2, .set (text "tag") (text "x"))] [(1, .del (text "expires"))]
example := C157_parsed_user_partial twoArgMaps (text "<sip:a@b>") ⟨text "sip", [], text "a", text "b", [], []⟩ (by decide +kernel) someRequestAt (by decide)
  [(2, .set (text "tag") (text "x"))] [(0, .del (text "lr"))]

example := C157_effect_partial twoArgMaps someUserAt (by decide) (text "expires") (text "0") (text "expires")

theorem tag_ok : ArgKey (text "tag") ∧ ArgText (text "a6c85cf") := by
  have h : ∀ s ∈ [text "tag", text "a6c85cf"], (∀ b ∈ s, (0x20 ≤ b ∧ b ≤ 0x7e) ∧ b ≠ 0x22 ∧ b ≠ 0x2c ∧ b ≠ 0x3b) ∧ s.head? ≠ some 0x20 ∧
      s.getLast? ≠ some 0x20 ∧ s ≠ [] ∧ (0x3d : UInt8) ∉ s := by decide +kernel
  exact ⟨⟨argText_ascii (h _ (by simp)).1 (h _ (by simp)).2.1 (h _ (by simp)).2.2.1, (h _ (by simp)).2.2.2.1, (h _ (by simp)).2.2.2.2⟩,
    argText_ascii (h _ (by simp)).1 (h _ (by simp)).2.1 (h _ (by simp)).2.2.1⟩

example : ∃ q, newSIPRequest (someRequestAt.view (ArgCall.run [(0, .set (text "tag") (text "a6c85cf"))] twoArgMaps)).bytes = .ok q ∧
    q.args.get (text "tag") = text "a6c85cf" ∧ q.user = text "alice" ∧ q.host = text "atlanta.com" :=
  (C157_to_user_refuted twoArgMaps someRequestAt (by decide) (text "tag") (text "a6c85cf") (by decide +kernel)).2.2 _ (.refl _)
    (.inr (.inl rfl)) (by decide +kernel) (by decide +kernel) (by decide +kernel) someArgs_ok tag_ok.1 tag_ok.2
example (U : Unicode) := C157_to_request_refuted U twoArgMaps someUserAt (by decide) (text "tag") (text "a6c85cf") (by decide +kernel)

end Verif.Props
