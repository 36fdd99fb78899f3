import Verif.Props.SipsHeader
/-!
# Properties of package `sips`: the forms of URIs and Via values (C111 to C113)
-/
namespace Verif.Props
open Verif.Sips Verif.Str Verif.Spec.Sips

theorem mem_schemes {t : Bytes} (ht : t = text "sip" ∨ t = text "sips" ∨ t = text "tel") : t ∈ schemes := by
  rcases ht with h | h | h <;> rw [h] <;> decide +kernel

theorem mem_transports {t : Bytes} (ht : t = text "UDP" ∨ t = text "TCP" ∨ t = text "TLS" ∨ t = text "SCTP") : t ∈ transports := by
  rcases ht with h | h | h | h <;> rw [h] <;> decide +kernel

/-! ## C111 -/

/-- C111 fails for every request URI without a user part, such as the `sip:registrar.biloxi.com` of a REGISTER: the host, with
its port, is taken for the user, host and port are empty, and written again the URI has an `@` too many. -/
theorem C111_request_without_user_refuted (t : Bytes) (ht : t = text "sip" ∨ t = text "sips" ∨ t = text "tel") (hostport : Bytes)
    (hh : ∀ b ∈ hostport, b ≠ 0x40 ∧ b ≠ 0x3b) (a o : Args) (ho : o.Perm a) (ha : ArgMap a) :
    newSIPRequest (t ++ 0x3a :: hostport ++ semicolonString o) = .ok ⟨t, hostport, [], [], o⟩ ∧
      (⟨t, hostport, [], [], o⟩ : Request).bytes = t ++ 0x3a :: hostport ++ 0x40 :: semicolonString o := by
  have hsm := mem_schemes ht
  obtain ⟨b, r, hb, hb1, -, -⟩ := scheme_first hsm
  have hsch := scheme_of hsm (hostport ++ semicolonString o)
  have hloop : requestLoop ((hostport.length + 1) + 1) (t ++ 0x3a :: hostport ++ semicolonString o) .base {} =
      .ok ({ uriType := t, user := hostport }, semicolonString o) := by
    have e : t ++ 0x3a :: hostport ++ semicolonString o = t ++ b!":" ++ (hostport ++ semicolonString o) := by simp
    rw [e]
    rw [hb] at hsch ⊢
    rw [List.cons_append, List.cons_append] at hsch ⊢
    rw [requestLoop_cons, if_neg hb1]
    simp only [hsch, Res.bind_ok]
    rw [requestLoop_user _ (fun b hb => ⟨(hh b hb).2, (hh b hb).1⟩), requestLoop_stop]
    simp
  refine ⟨?_, ?_⟩
  · simp only [newSIPRequest]
    rw [requestLoop_mono ((hostport.length + 1) + 1) _ _ _ _ (by simp; omega) (by rw [hloop]; simp), hloop, Res.bind_ok]
    simp only
    rw [parseTail _ (argMap_perm ha ho)]
    rfl
  · simp [Request.bytes, portBytes, argsBytes_eq]

example : newSIPRequest (text "sip:registrar.biloxi.com:5060") = .ok ⟨text "sip", text "registrar.biloxi.com:5060", [], [], []⟩ := by
  have := (C111_request_without_user_refuted (text "sip") (.inl rfl) (text "registrar.biloxi.com:5060") (by decide +kernel) [] [] (List.Perm.refl _)
    ⟨by simp, by simp, by simp⟩).1
  exact (show newSIPRequest _ = _ from (by decide +kernel : text "sip:registrar.biloxi.com:5060" =
    text "sip" ++ 0x3a :: text "registrar.biloxi.com:5060" ++ semicolonString []) ▸ this)

/-- C111 fails for every address without a user part in the same way. -/
theorem C111_address_without_user_refuted (t : Bytes) (ht : t = text "sip" ∨ t = text "sips" ∨ t = text "tel") (hostport : Bytes)
    (hh : ∀ b ∈ hostport, b ≠ 0x40 ∧ b ≠ 0x3b ∧ b ≠ 0x3e ∧ b ≠ 0x20) (a o : Args) (ho : o.Perm a) (ha : ArgMap a) :
    newSIPUser (0x3c :: t ++ 0x3a :: hostport ++ 0x3e :: semicolonString o) = .ok ⟨t, [], hostport, [], [], o⟩ := by
  have hsm := mem_schemes ht
  obtain ⟨b, r, hb, hb1, hb2, hb3⟩ := scheme_first hsm
  have hsch := scheme_of hsm (hostport ++ 0x3e :: semicolonString o)
  have e : 0x3c :: t ++ 0x3a :: hostport ++ 0x3e :: semicolonString o = 0x3c :: (t ++ b!":" ++ (hostport ++ 0x3e :: semicolonString o)) := by simp
  have hlt : scheme ((0x3c : UInt8) :: (t ++ b!":" ++ (hostport ++ 0x3e :: semicolonString o))) = .ok none := by
    rw [scheme_eq]; simp
  have hloop : userLoop (((hostport.length + 2) + 1) + 1) (0x3c :: t ++ 0x3a :: hostport ++ 0x3e :: semicolonString o) .base {} =
      .ok ({ uriType := t, user := hostport }, semicolonString o) := by
    rw [e, userLoop, if_neg (by decide), if_neg (by decide)]
    simp only [hlt, Res.bind_ok]
    rw [if_neg (by simp)]
    rw [hb] at hsch ⊢
    rw [List.cons_append, List.cons_append] at hsch ⊢
    rw [userLoop, if_neg hb1, if_neg (by simp [hb2, hb3])]
    simp only [hsch, Res.bind_ok]
    rw [userLoop_user _ (fun b hb => ⟨(hh b hb).2.1, (hh b hb).1, (hh b hb).2.2⟩)]
    show userLoop (1 + 1) _ _ _ = _
    rw [userLoop_cons, if_neg (by decide), if_pos (Or.inl rfl), userLoop_stop]
    simp
  simp only [newSIPUser]
  rw [userLoop_mono (((hostport.length + 2) + 1) + 1) _ _ _ _ (by simp; omega) (by rw [hloop]; simp), hloop, Res.bind_ok]
  simp only
  rw [parseTail _ (argMap_perm ha ho)]
  simp

example : newSIPUser (text "<sip:atlanta.com>") = .ok ⟨text "sip", [], text "atlanta.com", [], [], []⟩ := by
  have := C111_address_without_user_refuted (text "sip") (.inl rfl) (text "atlanta.com") (by decide +kernel) [] [] (List.Perm.refl _)
    ⟨by simp, by simp, by simp⟩
  exact (show newSIPUser _ = _ from (by decide +kernel : text "<sip:atlanta.com>" =
    0x3c :: text "sip" ++ 0x3a :: text "atlanta.com" ++ 0x3e :: semicolonString []) ▸ this)

/-! ## C112 -/

/-- C112 fails for every host with a colon, that is, for every IPv6 reference: the host ends at the first colon, and the rest
of it is taken for the port. -/
theorem C112_colon_host_refuted (U : Unicode) (h1 h2 port : Bytes) (hne : h2 ≠ []) (a o : Args) (ho : o.Perm a) (ha : ArgMap a)
    (hh1 : ∀ b ∈ h1, b ≠ 0x20 ∧ b ≠ 0x3a ∧ b ≠ 0x3b ∧ b ≠ 0x3e) (hh2 : ∀ b ∈ h2, b ≠ 0x20 ∧ b ≠ 0x3b ∧ b ≠ 0x3e)
    (hp : ∀ b ∈ port, b ≠ 0x20 ∧ b ≠ 0x3b ∧ b ≠ 0x3e) (t user : Bytes) (ht : t = text "sip" ∨ t = text "sips" ∨ t = text "tel")
    (hu : ∀ b ∈ user, b ≠ 0x20 ∧ b ≠ 0x3b ∧ b ≠ 0x3e ∧ b ≠ 0x40)
    (tr : Bytes) (htr : tr = text "UDP" ∨ tr = text "TCP" ∨ tr = text "TLS" ∨ tr = text "SCTP") :
    ∃ port', port' = h2 ++ (if port = [] then [] else 0x3a :: port) ∧
      newSIPRequest (⟨t, user, h1 ++ 0x3a :: h2, port, o⟩ : Request).bytes = .ok ⟨t, user, h1, port', o⟩ ∧
      newSIPUser ((⟨t, [], user, h1 ++ 0x3a :: h2, port, o⟩ : User).bytes U) = .ok ⟨t, [], user, h1, port', o⟩ ∧
      newSIPVia (⟨tr, h1 ++ 0x3a :: h2, port, o⟩ : Via).bytes = .ok ⟨tr, h1, port', o⟩ := by
  refine ⟨_, rfl, ?_⟩
  have hpb : portBytes port = if port = [] then [] else 0x3a :: port := by
    cases port <;> simp [portBytes]
  rw [← hpb]
  have hpc : ∀ b ∈ h2 ++ portBytes port, b ≠ 0x20 ∧ b ≠ 0x3b ∧ b ≠ 0x3e := by
    intro b hb
    rw [List.mem_append, hpb] at hb
    rcases hb with hb | hb
    · exact hh2 b hb
    · split at hb
      · simp at hb
      · rcases List.mem_cons.1 hb with rfl | hb
        · decide
        · exact hp b hb
  have hp2 : portBytes (h2 ++ portBytes port) = 0x3a :: (h2 ++ portBytes port) := by
    have : 0 < h2.length := List.length_pos_iff.2 hne
    rw [portBytes, if_pos (by simp; omega)]; rfl
  have ha' := argMap_perm ha ho
  refine ⟨?_, ?_, ?_⟩
  · have e : (⟨t, user, h1 ++ 0x3a :: h2, port, o⟩ : Request).bytes = (⟨t, user, h1, h2 ++ portBytes port, o⟩ : Request).bytes := by
      simp [Request.bytes, hp2]
    rw [e]
    exact newSIPRequest_bytes _ ⟨mem_schemes ht, fun b hb => ⟨(hu b hb).2.1, (hu b hb).2.2.2⟩, fun b hb => ⟨(hh1 b hb).2.2.1, (hh1 b hb).2.1⟩,
      fun b hb => (hpc b hb).2.1, ha'⟩
  · have e : (⟨t, [], user, h1 ++ 0x3a :: h2, port, o⟩ : User).bytes U = (⟨t, [], user, h1, h2 ++ portBytes port, o⟩ : User).bytes U := by
      simp [User.bytes, hp2]
    rw [e]
    exact newSIPUser_bytes U _ ⟨mem_schemes ht, fun b hb => ⟨(hu b hb).2.1, (hu b hb).2.2.2, (hu b hb).2.2.1, (hu b hb).1⟩,
      fun b hb => ⟨(hh1 b hb).2.2.1, (hh1 b hb).2.1, (hh1 b hb).2.2.2, (hh1 b hb).1⟩,
      fun b hb => ⟨(hpc b hb).2.1, (hpc b hb).2.2, (hpc b hb).1⟩, ha'⟩ (by simp) (by simp) (by simp)
  · have e : (⟨tr, h1 ++ 0x3a :: h2, port, o⟩ : Via).bytes = (⟨tr, h1, h2 ++ portBytes port, o⟩ : Via).bytes := by
      simp [Via.bytes, hp2]
    rw [e]
    exact newSIPVia_bytes _ ⟨mem_transports htr, fun b hb => ⟨(hh1 b hb).2.2.1, (hh1 b hb).2.1, (hh1 b hb).1⟩,
      fun b hb => ⟨(hpc b hb).2.1, (hpc b hb).1⟩, ha'⟩

example : newSIPRequest (text "sip:alice@[2001:db8::9:1]:5060") = .ok ⟨text "sip", text "alice", text "[2001", text "db8::9:1]:5060", []⟩ := by
  obtain ⟨p, rfl, h, -⟩ := C112_colon_host_refuted plainU (text "[2001") (text "db8::9:1]") (text "5060") (by decide +kernel) [] [] (List.Perm.refl _)
    ⟨by simp, by simp, by simp⟩ (by decide +kernel) (by decide +kernel) (by decide +kernel) (text "sip") (text "alice") (.inl rfl) (by decide +kernel)
    (text "UDP") (.inl rfl)
  have e : (⟨text "sip", text "alice", text "[2001" ++ 0x3a :: text "db8::9:1]", text "5060", []⟩ : Request).bytes =
    text "sip:alice@[2001:db8::9:1]:5060" := by decide +kernel
  rw [e] at h
  rw [h]
  decide +kernel

/-- C112 (partial): whatever the host contains, the text is unchanged when a parsed request URI or Via value is written
again. -/
theorem C112_text_partial (h1 h2 port : Bytes) (hne : h2 ≠ []) (o : Args) (ha : ArgMap o)
    (hh1 : ∀ b ∈ h1, b ≠ 0x20 ∧ b ≠ 0x3a ∧ b ≠ 0x3b ∧ b ≠ 0x3e) (hh2 : ∀ b ∈ h2, b ≠ 0x20 ∧ b ≠ 0x3b ∧ b ≠ 0x3e)
    (hp : ∀ b ∈ port, b ≠ 0x20 ∧ b ≠ 0x3b ∧ b ≠ 0x3e) (t user : Bytes) (ht : t = text "sip" ∨ t = text "sips" ∨ t = text "tel")
    (hu : ∀ b ∈ user, b ≠ 0x20 ∧ b ≠ 0x3b ∧ b ≠ 0x3e ∧ b ≠ 0x40)
    (tr : Bytes) (htr : tr = text "UDP" ∨ tr = text "TCP" ∨ tr = text "TLS" ∨ tr = text "SCTP") :
    (∃ q, newSIPRequest (⟨t, user, h1 ++ 0x3a :: h2, port, o⟩ : Request).bytes = .ok q ∧
      q.bytes = (⟨t, user, h1 ++ 0x3a :: h2, port, o⟩ : Request).bytes) ∧
    ∃ v, newSIPVia (⟨tr, h1 ++ 0x3a :: h2, port, o⟩ : Via).bytes = .ok v ∧ v.bytes = (⟨tr, h1 ++ 0x3a :: h2, port, o⟩ : Via).bytes := by
  obtain ⟨p, rfl, g1, -, g3⟩ := C112_colon_host_refuted plainU h1 h2 port hne o o (List.Perm.refl _) ha hh1 hh2 hp t user ht hu tr htr
  have : 0 < h2.length := List.length_pos_iff.2 hne
  refine ⟨⟨_, g1, ?_⟩, _, g3, ?_⟩
  · have hl : 0 < (h2 ++ if port = [] then [] else 0x3a :: port).length := by simp; omega
    cases port <;> simp [Request.bytes, portBytes, this] at hl ⊢
    rw [if_pos hl]; simp
  · have hl : 0 < (h2 ++ if port = [] then [] else 0x3a :: port).length := by simp; omega
    cases port <;> simp [Via.bytes, portBytes, this] at hl ⊢
    rw [if_pos hl]; simp

example : ∃ v, newSIPVia (⟨text "TCP", text "[2001:db8::9:1]", text "5060", someArgs⟩ : Via).bytes = .ok v ∧
    v.bytes = (⟨text "TCP", text "[2001:db8::9:1]", text "5060", someArgs⟩ : Via).bytes := by
  have h := (C112_text_partial (text "[2001") (text "db8::9:1]") (text "5060") (by decide +kernel) someArgs someArgs_ok
    (by decide +kernel) (by decide +kernel) (by decide +kernel) (text "sip") (text "alice") (.inl rfl) (by decide +kernel) (text "TCP") (.inr (.inl rfl))).2
  rwa [show text "[2001" ++ 0x3a :: text "db8::9:1]" = text "[2001:db8::9:1]" by decide +kernel] at h

/-! ## C113 -/

/-- C113 fails for every text in which no lower case `sip:`, `sips:` or `tel:` occurs, for instance for a URI with its scheme in
upper case: user, host and port are lost. -/
theorem C113_scheme_case_refuted (w : Bytes) (q : Request) (hq : newSIPRequest w = .ok q)
    (hw : ∀ a b, w = a ++ b → ∀ t ∈ [text "sip:", text "sips:", text "tel:"], b.take t.length ≠ t) :
    q.uriType = text "sip" ∧ q.user = [] ∧ q.host = [] ∧ q.port = [] := by
  have key : ∀ (f : Nat) (s : Bytes) (p : Parts), (∃ a, w = a ++ s) → s.length < f → ∃ rest, requestLoop f s .base p = .ok (p, rest) := by
    intro f
    induction f with
    | zero => intro s p _ h; omega
    | succ f ih =>
      intro s p ⟨a, hs⟩ hl
      cases s with
      | nil => exact ⟨_, rfl⟩
      | cons b r =>
        rw [requestLoop_cons]
        by_cases hb : b = c!";"
        · rw [if_pos hb]; exact ⟨_, rfl⟩
        · rw [if_neg hb]
          have h := hw a (b :: r) hs
          have e1 := h (text "sip:") (by simp)
          have e2 := h (text "sips:") (by simp)
          have e3 := h (text "tel:") (by simp)
          rw [show text "sip:" = b!"sip:" by decide +kernel] at e1
          have e1 : (b :: r).take 4 ≠ b!"sip:" := e1
          rw [show text "sips:" = b!"sips:" by decide +kernel] at e2
          have e2 : (b :: r).take 5 ≠ b!"sips:" := e2
          rw [show text "tel:" = b!"tel:" by decide +kernel] at e3
          have e3 : (b :: r).take 4 ≠ b!"tel:" := e3
          have hn : scheme (b :: r) = .ok none := by
            rw [scheme_eq, if_neg e1, if_neg e3, if_neg e2]
          simp only [hn, Res.bind_ok]
          exact ih r p ⟨a ++ [b], by simp [hs]⟩ (by simp at hl; omega)
  obtain ⟨rest, h⟩ := key (w.length + 1) w {} ⟨[], rfl⟩ (by omega)
  simp only [newSIPRequest, h, Res.bind_ok] at hq
  cases ht : (if 0 < rest.length then parseArgs rest else .ok [] : Res Args) with
  | ok a =>
    rw [ht] at hq
    simp only [Res.bind_ok, Res.ok.injEq] at hq
    rw [← hq]
    exact ⟨(by decide +kernel : b!"sip" = text "sip"), rfl, rfl, rfl⟩
  | err e => rw [ht] at hq; simp at hq
  | panic => rw [ht] at hq; simp at hq
  | diverge => rw [ht] at hq; simp at hq

/-- No scheme occurs in the text, checked character by character. -/
theorem noScheme_of {w : Bytes} (h : ∀ n ≤ w.length, ∀ t ∈ [text "sip:", text "sips:", text "tel:"], (w.drop n).take t.length ≠ t) (a b : Bytes)
    (hw : w = a ++ b) : ∀ t ∈ [text "sip:", text "sips:", text "tel:"], b.take t.length ≠ t := by
  have := h a.length (by rw [hw]; simp)
  rwa [hw, List.drop_left] at this

example : ∃ q, newSIPRequest (text "SIP:alice@atlanta.com:5060") = .ok q ∧ q.uriType = text "sip" ∧ q.user = [] ∧ q.host = [] ∧ q.port = [] := by
  obtain ⟨q, h⟩ : ∃ q, newSIPRequest (text "SIP:alice@atlanta.com:5060") = .ok q := ⟨⟨text "sip", [], [], [], []⟩, by decide +kernel⟩
  exact ⟨q, h, C113_scheme_case_refuted _ q h (noScheme_of (by decide +kernel))⟩

/-- How a Via value is read whose transport is followed by more characters than known. -/
theorem newSIPVia_more (tr k more host port : Bytes) (o : Args) (hk : ∀ r, viaTrans [] (tr ++ r) = .ok (k, more ++ r))
    (hm : ∀ b ∈ more, b ≠ 0x3b ∧ b ≠ 0x3a ∧ b ≠ 0x20) (hh : ∀ b ∈ host, b ≠ 0x3b ∧ b ≠ 0x3a ∧ b ≠ 0x20)
    (hp : ∀ b ∈ port, b ≠ 0x3b ∧ b ≠ 0x20) (ha : ArgMap o) (hlen : more.length ≤ tr.length) :
    newSIPVia (⟨tr, host, port, o⟩ : Via).bytes = .ok ⟨k, more ++ host, port, o⟩ := by
  have hall : (⟨tr, host, port, o⟩ : Via).bytes = b!"SIP/2.0/" ++ (tr ++ ((0x20 : UInt8) :: (host ++ (portBytes port ++ semicolonString o)))) := by
    simp only [Via.bytes, argsBytes_eq, versionString]
    simp
  have hend : ∀ p : Via, viaLoop ((portBytes port).length + 1) (portBytes port ++ semicolonString o) .host p =
      .ok ({ p with port := p.port ++ port }, semicolonString o) := by
    intro p
    by_cases hp0 : port.length > 0
    · simp only [portBytes, if_pos hp0]
      rw [List.length_append, show (b!":").length + port.length + 1 = (port.length + 1) + 1 by simp; omega,
        List.append_assoc, List.singleton_append, viaLoop_cons]
      rw [if_neg (by decide), if_neg (by decide)]
      simp only [if_true]
      rw [viaLoop_port port hp, viaLoop_stop]
    · have : port = [] := List.length_eq_zero_iff.1 (by omega)
      simp only [portBytes, this, List.length_nil, List.nil_append]
      rw [if_neg (by simp)]
      simp only [List.nil_append, List.append_nil]
      exact viaLoop_stop _ _ _ _
  have hloop : viaLoop (more.length + (host.length + ((portBytes port).length + 1) + 1) + 1) (⟨tr, host, port, o⟩ : Via).bytes .base ⟨[], [], [], []⟩ =
      .ok (⟨k, more ++ host, port, []⟩, semicolonString o) := by
    rw [hall]
    simp only [List.cons_append]
    rw [viaLoop_cons, if_neg (by decide), if_neg (by decide)]
    rw [show (8 : Int) = ((8 : Nat) : Int) from rfl]
    simp only [substring_take, Res.bind_ok]
    simp only [List.take_succ_cons, List.take_zero, List.drop_succ_cons, List.drop_zero, List.nil_append, if_true]
    rw [hk, Res.bind_ok, viaLoop_host _ hm, viaLoop_cons, if_neg (by decide)]
    simp only [if_true]
    rw [viaLoop_host _ hh, hend]
    simp
  simp only [newSIPVia]
  rw [viaLoop_mono (more.length + (host.length + ((portBytes port).length + 1) + 1) + 1) _ _ _ _ (by rw [hall]; simp; omega)
    (by rw [hloop]; simp), hloop, Res.bind_ok]
  simp only
  rw [parseTail _ ha]
  rfl

/-- C113 fails for every other transport, be it `WS` or a known one in lower case: the transport is lost, and all of it but its
first character is taken for the beginning of the host. -/
theorem C113_transport_refuted (c : UInt8) (t host port : Bytes) (a o : Args) (ho : o.Perm a) (ha : ArgMap a)
    (ht : ∀ b ∈ t, b ≠ 0x3b ∧ b ≠ 0x3a ∧ b ≠ 0x20) (hh : ∀ b ∈ host, b ≠ 0x3b ∧ b ≠ 0x3a ∧ b ≠ 0x20)
    (hp : ∀ b ∈ port, b ≠ 0x3b ∧ b ≠ 0x20)
    (hk : ∀ r, ∀ k ∈ [text "UDP", text "TCP", text "TLS", text "SCTP"], (c :: t ++ r).take k.length ≠ k) :
    newSIPVia (⟨c :: t, host, port, o⟩ : Via).bytes = .ok ⟨[], t ++ host, port, o⟩ := by
  refine newSIPVia_more (c :: t) [] t host port o (fun r => ?_) ht hh hp (argMap_perm ha ho) (by simp)
  have h := hk r
  have e1 := h (text "UDP") (by simp)
  have e2 := h (text "TCP") (by simp)
  have e3 := h (text "TLS") (by simp)
  have e4 := h (text "SCTP") (by simp)
  rw [show text "UDP" = b!"UDP" by decide +kernel] at e1
  rw [show text "TCP" = b!"TCP" by decide +kernel] at e2
  rw [show text "TLS" = b!"TLS" by decide +kernel] at e3
  rw [show text "SCTP" = b!"SCTP" by decide +kernel] at e4
  have e1 : (c :: t ++ r).take 3 ≠ b!"UDP" := e1
  have e2 : (c :: t ++ r).take 3 ≠ b!"TCP" := e2
  have e3 : (c :: t ++ r).take 3 ≠ b!"TLS" := e3
  have e4 : (c :: t ++ r).take 4 ≠ b!"SCTP" := e4
  rw [viaTrans, show (3 : Int) = ((3 : Nat) : Int) from rfl, substring_take, Res.bind_ok, if_neg (by simp only [not_or]; exact ⟨e1, e2, e3⟩),
    show (4 : Int) = ((4 : Nat) : Int) from rfl, substring_take, Res.bind_ok, if_neg e4]
  rfl

example : newSIPVia (text "SIP/2.0/udp pc33.atlanta.com") = .ok ⟨[], text "dppc33.atlanta.com", [], []⟩ := by
  have h := C113_transport_refuted 0x75 (text "dp") (text "pc33.atlanta.com") [] [] [] (List.Perm.refl _) ⟨by simp, by simp, by simp⟩
    (by decide +kernel) (by decide +kernel) (by simp)
    (by
      intro r k hk
      simp only [List.mem_cons, List.not_mem_nil, or_false] at hk
      rw [show text "UDP" = b!"UDP" by decide +kernel, show text "TCP" = b!"TCP" by decide +kernel,
        show text "TLS" = b!"TLS" by decide +kernel, show text "SCTP" = b!"SCTP" by decide +kernel] at hk
      rcases hk with rfl | rfl | rfl | rfl <;> simp)
  rwa [show (⟨0x75 :: text "dp", text "pc33.atlanta.com", [], []⟩ : Via).bytes = text "SIP/2.0/udp pc33.atlanta.com" by decide +kernel,
    show text "dp" ++ text "pc33.atlanta.com" = text "dppc33.atlanta.com" by decide +kernel] at h

/-- C113 fails for every transport that begins like a known one, such as `TLS-SCTP`: the rest of it is taken for the beginning
of the host. -/
theorem C113_transport_prefix_refuted (k more host port : Bytes) (a o : Args) (ho : o.Perm a) (ha : ArgMap a)
    (hk : k = text "UDP" ∨ k = text "TCP" ∨ k = text "TLS" ∨ k = text "SCTP")
    (hm : ∀ b ∈ more, b ≠ 0x3b ∧ b ≠ 0x3a ∧ b ≠ 0x20) (hh : ∀ b ∈ host, b ≠ 0x3b ∧ b ≠ 0x3a ∧ b ≠ 0x20)
    (hp : ∀ b ∈ port, b ≠ 0x3b ∧ b ≠ 0x20) :
    newSIPVia (⟨k ++ more, host, port, o⟩ : Via).bytes = .ok ⟨k, more ++ host, port, o⟩ :=
  newSIPVia_more (k ++ more) k more host port o (fun r => by rw [List.append_assoc, viaTrans_known (mem_transports hk)]) hm hh hp
    (argMap_perm ha ho) (by simp)

example : newSIPVia (⟨text "TLS" ++ text "-SCTP", text "pc33.atlanta.com", text "5061", someArgs⟩ : Via).bytes =
    .ok ⟨text "TLS", text "-SCTP" ++ text "pc33.atlanta.com", text "5061", someArgs⟩ :=
  C113_transport_prefix_refuted _ _ _ _ someArgs someArgs (List.Perm.refl _) someArgs_ok (.inr (.inr (.inl rfl))) (by decide +kernel)
    (by decide +kernel) (by decide +kernel)

end Verif.Props
