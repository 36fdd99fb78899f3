import Verif.Lemmas.SipsArgs
/-! # Lemmas about the parsing loops of request URIs, addresses and Via headers -/
namespace Verif.Sips
open Verif.Str Verif.Spec.Sips

/-! ## substring and scheme -/

theorem substring_ok (v : Bytes) (fr to : Int) : substring v fr to = .ok ((v.take to.toNat).drop fr.toNat) := by
  simp only [substring]
  generalize hf : (if fr < 0 then (0 : Int) else fr) = f
  generalize ht : (if to < 0 then (0 : Int) else to) = t
  have hf0 : f = fr.toNat := by rw [← hf]; split <;> omega
  have ht0 : t = to.toNat := by rw [← ht]; split <;> omega
  subst hf0; subst ht0
  by_cases h : (fr.toNat : Int) > v.length ∨ (fr.toNat : Int) > to.toNat
  · rw [if_pos h, List.drop_eq_nil_of_le (by rw [List.length_take]; omega)]
  · rw [if_neg h]
    by_cases h2 : (to.toNat : Int) > v.length
    · rw [if_pos h2, goSlice_nat _ _ _ (by omega) (Nat.le_refl _), List.take_length,
        List.take_of_length_le (by omega)]
    · rw [if_neg h2, goSlice_nat _ _ _ (by omega) (by omega)]

theorem substring_take (v : Bytes) (n : Nat) : substring v 0 n = .ok (v.take n) := by
  rw [substring_ok]; simp

/-- The schemes recognised. -/
def schemes : List Bytes := [b!"sip", b!"tel", b!"sips"]

theorem scheme_eq (rest : Bytes) : scheme rest =
    .ok (if rest.take 4 = b!"sip:" then some (b!"sip", rest.drop 4)
      else if rest.take 4 = b!"tel:" then some (b!"tel", rest.drop 4)
      else if rest.take 5 = b!"sips:" then some (b!"sips", rest.drop 5) else none) := by
  simp only [scheme]
  rw [show (4 : Int) = ((4 : Nat) : Int) from rfl, show (5 : Int) = ((5 : Nat) : Int) from rfl, substring_take,
    substring_take, Res.bind_ok, Res.bind_ok]
  have key : ∀ (n : Nat) (p : Bytes), p.length = n + 1 → rest.take (n + 1) = p →
      goSlice rest 0 ((n : Nat) : Int) = .ok (p.take n) := by
    intro n p hp h
    have hl : n + 1 ≤ rest.length := by
      have := congrArg List.length h
      rw [List.length_take, hp] at this; omega
    rw [show (0 : Int) = ((0 : Nat) : Int) from rfl, goSlice_nat _ _ _ (by omega) (by omega), List.drop_zero, ← h,
      List.take_take]
    congr 2; omega
  by_cases h1 : rest.take 4 = b!"sip:"
  · rw [if_pos (Or.inl h1), if_pos h1, show (3 : Int) = ((3 : Nat) : Int) from rfl, key 3 _ rfl h1]; rfl
  · by_cases h2 : rest.take 4 = b!"tel:"
    · rw [if_pos (Or.inr h2), if_neg h1, if_pos h2, show (3 : Int) = ((3 : Nat) : Int) from rfl, key 3 _ rfl h2]; rfl
    · rw [if_neg (by simp only [not_or]; exact ⟨h1, h2⟩), if_neg h1, if_neg h2]
      by_cases h3 : rest.take 5 = b!"sips:"
      · rw [if_pos h3, if_pos h3, key 4 _ rfl h3]; rfl
      · rw [if_neg h3, if_neg h3]

theorem scheme_some {rest t r : Bytes} (h : scheme rest = .ok (some (t, r))) :
    t ∈ schemes ∧ rest = t ++ b!":" ++ r := by
  rw [scheme_eq] at h
  have td := @List.take_append_drop UInt8
  split at h
  · next e =>
    simp only [Res.ok.injEq, Option.some.injEq, Prod.mk.injEq] at h
    obtain ⟨rfl, rfl⟩ := h
    exact ⟨by simp [schemes], by rw [← td 4 rest, e]; simp⟩
  · split at h
    · next e =>
      simp only [Res.ok.injEq, Option.some.injEq, Prod.mk.injEq] at h
      obtain ⟨rfl, rfl⟩ := h
      exact ⟨by simp [schemes], by rw [← td 4 rest, e]; simp⟩
    · split at h
      · next e =>
        simp only [Res.ok.injEq, Option.some.injEq, Prod.mk.injEq] at h
        obtain ⟨rfl, rfl⟩ := h
        exact ⟨by simp [schemes], by rw [← td 5 rest, e]; simp⟩
      · simp at h

theorem scheme_of {t : Bytes} (h : t ∈ schemes) (r : Bytes) : scheme (t ++ b!":" ++ r) = .ok (some (t, r)) := by
  rw [scheme_eq]
  simp only [schemes, List.mem_cons, List.not_mem_nil, or_false] at h
  rcases h with rfl | rfl | rfl <;> simp

theorem scheme_total (rest : Bytes) : ∃ o, scheme rest = .ok o := ⟨_, scheme_eq rest⟩

/-- No scheme starts inside a text without `:` that is followed by `<`. -/
theorem scheme_none (x rest : Bytes) (hx : (0x3a : UInt8) ∉ x) (hne : x ≠ []) :
    scheme (x ++ 0x3c :: rest) = .ok none := by
  obtain ⟨o, ho⟩ := scheme_total (x ++ 0x3c :: rest)
  cases o with
  | none => exact ho
  | some p =>
    obtain ⟨t, r⟩ := p
    obtain ⟨ht, he⟩ := scheme_some ho
    exfalso
    have h3c : ∀ t ∈ schemes, (0x3c : UInt8) ∉ t := by decide
    have h3a : ∀ t ∈ schemes, (0x3a : UInt8) ∉ t := by decide
    have hc := index_append (h3a t ht) r
    have hc' : index 0x3a (t ++ b!":" ++ r) = t.length := by rw [List.append_assoc]; exact hc
    by_cases hl : x.length < t.length
    · have : (x ++ 0x3c :: rest)[x.length]? = some 0x3c := by simp
      rw [he, List.append_assoc, List.getElem?_append_left hl] at this
      exact h3c t ht (List.mem_of_getElem? this)
    · have h1 : (t ++ b!":" ++ r)[t.length]? = some 0x3a := by simp
      rw [← he] at h1
      by_cases hl2 : t.length < x.length
      · rw [List.getElem?_append_left hl2] at h1
        exact hx (List.mem_of_getElem? h1)
      · have : t.length = x.length := by omega
        rw [this] at h1
        simp at h1

/-! ## Arguments after an address -/

theorem argsBytes_eq (a : Args) : argsBytes a = semicolonString a := by
  simp only [argsBytes]
  split
  · rfl
  · next h =>
    have : a = [] := List.length_eq_zero_iff.1 (by omega)
    subst this; rfl

theorem parseTail (a : Args) (h : ArgMap a) :
    (if 0 < (semicolonString a).length then parseArgs (semicolonString a) else .ok []) = Res.ok a := by
  by_cases hl : 0 < (semicolonString a).length
  · rw [if_pos hl, parseArgs_semi a h]
  · rw [if_neg hl]
    cases a with
    | nil => rfl
    | cons e es => simp [semicolonString, semiItem_eq] at hl

/-- `;args` or nothing. -/
theorem semi_cases (a : Args) : semicolonString a = [] ∨ ∃ r, semicolonString a = 0x3b :: r := by
  cases a with
  | nil => exact Or.inl rfl
  | cons e es => right; exact ⟨itemText e ++ semicolonString es, by simp [semicolonString, semiItem_eq]⟩

/-! ## Request URIs -/

theorem requestLoop_cons (f : Nat) (b : UInt8) (r : Bytes) (st : Field) (a : Parts) :
    requestLoop (f + 1) (b :: r) st a =
    if b = c!";" then .ok (a, b :: r)
    else match st with
      | .base => scheme (b :: r) >>= fun o => match o with
        | some (t, rest) => requestLoop f rest .user { a with uriType := t }
        | none => requestLoop f r .base a
      | .user =>
        if b = c!"@" then requestLoop f r .host a
        else requestLoop f r .user { a with user := a.user ++ [b] }
      | .host =>
        if b = c!":" then requestLoop f r .port a
        else requestLoop f r .host { a with host := a.host ++ [b] }
      | .port => requestLoop f r .port { a with port := a.port ++ [b] }
      | .name => requestLoop f r .name a := by
  cases st <;> rfl

theorem requestLoop_stop (a : Args) (f : Nat) (st : Field) (p : Parts) :
    requestLoop (f + 1) (semicolonString a) st p = .ok (p, semicolonString a) := by
  rcases semi_cases a with h | ⟨r, h⟩ <;> rw [h] <;> simp [requestLoop]

theorem requestLoop_user (u : Bytes) (hu : ∀ b ∈ u, b ≠ 0x3b ∧ b ≠ 0x40) (f : Nat) (rest : Bytes) :
    ∀ p : Parts, requestLoop (u.length + f) (u ++ rest) .user p =
      requestLoop f rest .user { p with user := p.user ++ u } := by
  induction u with
  | nil => intro p; simp
  | cons b u ih =>
    intro p
    obtain ⟨h1, h2⟩ := hu b (by simp)
    rw [List.length_cons, show u.length + 1 + f = (u.length + f) + 1 by omega, List.cons_append, requestLoop]
    simp only [if_neg h1, if_neg h2]
    rw [ih (fun x hx => hu x (by simp [hx]))]
    simp

theorem requestLoop_host (u : Bytes) (hu : ∀ b ∈ u, b ≠ 0x3b ∧ b ≠ 0x3a) (f : Nat) (rest : Bytes) :
    ∀ p : Parts, requestLoop (u.length + f) (u ++ rest) .host p =
      requestLoop f rest .host { p with host := p.host ++ u } := by
  induction u with
  | nil => intro p; simp
  | cons b u ih =>
    intro p
    obtain ⟨h1, h2⟩ := hu b (by simp)
    rw [List.length_cons, show u.length + 1 + f = (u.length + f) + 1 by omega, List.cons_append, requestLoop]
    simp only [if_neg h1, if_neg h2]
    rw [ih (fun x hx => hu x (by simp [hx]))]
    simp

theorem requestLoop_port (u : Bytes) (hu : ∀ b ∈ u, b ≠ 0x3b) (f : Nat) (rest : Bytes) :
    ∀ p : Parts, requestLoop (u.length + f) (u ++ rest) .port p =
      requestLoop f rest .port { p with port := p.port ++ u } := by
  induction u with
  | nil => intro p; simp
  | cons b u ih =>
    intro p
    have h1 := hu b (by simp)
    rw [List.length_cons, show u.length + 1 + f = (u.length + f) + 1 by omega, List.cons_append, requestLoop]
    simp only [if_neg h1]
    rw [ih (fun x hx => hu x (by simp [hx]))]
    simp

/-- More fuel does not change a result. -/
theorem requestLoop_mono : ∀ (f : Nat) (s : Bytes) (st : Field) (p : Parts) (g : Nat), f ≤ g →
    requestLoop f s st p ≠ .diverge → requestLoop g s st p = requestLoop f s st p
  | 0, _, _, _, _, _, h => absurd rfl h
  | f + 1, s, st, p, 0, hg, _ => by omega
  | f + 1, [], st, p, g + 1, _, _ => rfl
  | f + 1, b :: r, st, p, g + 1, hg, h => by
    have ih := fun s st p => requestLoop_mono f s st p g (by omega)
    rw [requestLoop_cons] at h
    rw [requestLoop_cons, requestLoop_cons]
    by_cases hb : b = c!";"
    · rw [if_pos hb, if_pos hb]
    · rw [if_neg hb] at h ⊢
      rw [if_neg hb]
      cases st with
      | base =>
        obtain ⟨o, ho⟩ := scheme_total (b :: r)
        simp only [ho, Res.bind_ok] at h ⊢
        cases o with
        | none => exact ih _ _ _ h
        | some q => obtain ⟨t, q⟩ := q; exact ih _ _ _ h
      | user =>
        by_cases hc : b = c!"@"
        · simp only [if_pos hc] at h ⊢; exact ih _ _ _ h
        · simp only [if_neg hc] at h ⊢; exact ih _ _ _ h
      | host =>
        by_cases hc : b = c!":"
        · simp only [if_pos hc] at h ⊢; exact ih _ _ _ h
        · simp only [if_neg hc] at h ⊢; exact ih _ _ _ h
      | port => exact ih _ _ _ h
      | name => exact ih _ _ _ h

/-- Well-formed parts of a request URI. -/
structure ReqOk (s : Request) : Prop where
  uriType : s.uriType ∈ schemes
  user : ∀ b ∈ s.user, b ≠ 0x3b ∧ b ≠ 0x40
  host : ∀ b ∈ s.host, b ≠ 0x3b ∧ b ≠ 0x3a
  port : ∀ b ∈ s.port, b ≠ 0x3b
  args : ArgMap s.args

theorem scheme_first {t : Bytes} (h : t ∈ schemes) : ∃ b r, t = b :: r ∧ b ≠ 0x3b ∧ b ≠ 0x3e ∧ b ≠ 0x20 := by
  simp only [schemes, List.mem_cons, List.not_mem_nil, or_false] at h
  rcases h with rfl | rfl | rfl <;> exact ⟨_, _, rfl, by decide, by decide, by decide⟩

theorem newSIPRequest_bytes (s : Request) (h : ReqOk s) : newSIPRequest s.bytes = .ok s := by
  obtain ⟨b, r, hb, hb1, -, -⟩ := scheme_first h.uriType
  have hall : s.bytes = s.uriType ++ b!":" ++ (s.user ++ ((0x40 : UInt8) :: (s.host ++ (portBytes s.port ++ semicolonString s.args)))) := by
    simp only [Request.bytes, argsBytes_eq]
    simp
  have hend : ∀ p : Parts, requestLoop ((portBytes s.port).length + 1) (portBytes s.port ++ semicolonString s.args) .host p =
      .ok ({ p with port := p.port ++ s.port }, semicolonString s.args) := by
    intro p
    by_cases hp : s.port.length > 0
    · simp only [portBytes, if_pos hp]
      rw [List.length_append, show (b!":").length + s.port.length + 1 = (s.port.length + 1) + 1 by simp; omega,
        List.append_assoc, List.singleton_append, requestLoop]
      rw [if_neg (by decide)]
      simp only [if_true]
      rw [requestLoop_port s.port h.port, requestLoop_stop]
    · have : s.port = [] := List.length_eq_zero_iff.1 (by omega)
      simp only [portBytes, this, List.length_nil, List.nil_append]
      rw [if_neg (by simp)]
      simp only [List.nil_append, List.append_nil]
      exact requestLoop_stop _ _ _ _
  have hloop : requestLoop ((1 + (s.user.length + (1 + (s.host.length + ((portBytes s.port).length + 1)))))) s.bytes .base {} =
      .ok ({ uriType := s.uriType, user := s.user, host := s.host, port := s.port }, semicolonString s.args) := by
    have hsch := scheme_of h.uriType (s.user ++ ((0x40 : UInt8) :: (s.host ++ (portBytes s.port ++ semicolonString s.args))))
    rw [hall]
    rw [hb] at hsch ⊢
    rw [Nat.add_comm 1, List.cons_append, List.cons_append, requestLoop, if_neg hb1]
    rw [List.cons_append, List.cons_append] at hsch
    simp only [hsch, Res.bind_ok]
    rw [requestLoop_user _ h.user, Nat.add_comm 1, requestLoop, if_neg (by decide)]
    simp only [if_true]
    rw [requestLoop_host _ h.host, hend]
    simp
  have hlen : 1 + (s.user.length + (1 + (s.host.length + ((portBytes s.port).length + 1)))) ≤ s.bytes.length + 1 := by
    rw [hall, hb]; simp; omega
  simp only [newSIPRequest]
  rw [requestLoop_mono _ _ _ _ _ hlen (by rw [hloop]; simp), hloop, Res.bind_ok]
  simp only
  rw [parseTail _ h.args]
  rfl

/-! ## Addresses -/

theorem userLoop_cons (f : Nat) (b : UInt8) (r : Bytes) (st : Field) (a : Parts) :
    userLoop (f + 1) (b :: r) st a =
    if b = c!";" then .ok (a, b :: r)
    else if b = c!">" ∨ (b = c!" " ∧ st ≠ .name) then userLoop f r .base a
    else match st with
      | .base => scheme (b :: r) >>= fun o => match o with
        | some (t, rest) => userLoop f rest .user { a with uriType := t }
        | none =>
          if b = c!"\"" ∨ a.uriType = [] then userLoop f (b :: r) .name a
          else userLoop f r .base a
      | .name =>
        if b = c!"\"" ∨ b = c!"<" then userLoop f r .base a
        else userLoop f r .name { a with name := a.name ++ [b] }
      | .user =>
        if b = c!"@" then userLoop f r .host a
        else userLoop f r .user { a with user := a.user ++ [b] }
      | .host =>
        if b = c!":" then userLoop f r .port a
        else userLoop f r .host { a with host := a.host ++ [b] }
      | .port => userLoop f r .port { a with port := a.port ++ [b] } := by
  cases st <;> rfl

theorem userLoop_stop (a : Args) (f : Nat) (st : Field) (p : Parts) :
    userLoop (f + 1) (semicolonString a) st p = .ok (p, semicolonString a) := by
  rcases semi_cases a with h | ⟨r, h⟩ <;> rw [h] <;> simp [userLoop]

theorem userLoop_mono : ∀ (f : Nat) (s : Bytes) (st : Field) (p : Parts) (g : Nat), f ≤ g →
    userLoop f s st p ≠ .diverge → userLoop g s st p = userLoop f s st p
  | 0, _, _, _, _, _, h => absurd rfl h
  | f + 1, s, st, p, 0, hg, _ => by omega
  | f + 1, [], st, p, g + 1, _, _ => rfl
  | f + 1, b :: r, st, p, g + 1, hg, h => by
    have ih := fun s st p => userLoop_mono f s st p g (by omega)
    rw [userLoop_cons] at h
    rw [userLoop_cons, userLoop_cons]
    by_cases hb : b = c!";"
    · rw [if_pos hb, if_pos hb]
    · rw [if_neg hb] at h ⊢
      rw [if_neg hb]
      by_cases hb2 : b = c!">" ∨ (b = c!" " ∧ st ≠ .name)
      · rw [if_pos hb2] at h ⊢
        rw [if_pos hb2]; exact ih _ _ _ h
      rw [if_neg hb2] at h ⊢
      rw [if_neg hb2]
      cases st with
      | base =>
        obtain ⟨o, ho⟩ := scheme_total (b :: r)
        simp only [ho, Res.bind_ok] at h ⊢
        cases o with
        | none =>
          by_cases hc : b = c!"\"" ∨ p.uriType = []
          · simp only [if_pos hc] at h ⊢; exact ih _ _ _ h
          · simp only [if_neg hc] at h ⊢; exact ih _ _ _ h
        | some q => obtain ⟨t, q⟩ := q; exact ih _ _ _ h
      | user =>
        by_cases hc : b = c!"@"
        · simp only [if_pos hc] at h ⊢; exact ih _ _ _ h
        · simp only [if_neg hc] at h ⊢; exact ih _ _ _ h
      | host =>
        by_cases hc : b = c!":"
        · simp only [if_pos hc] at h ⊢; exact ih _ _ _ h
        · simp only [if_neg hc] at h ⊢; exact ih _ _ _ h
      | port => exact ih _ _ _ h
      | name =>
        by_cases hc : b = c!"\"" ∨ b = c!"<"
        · simp only [if_pos hc] at h ⊢; exact ih _ _ _ h
        · simp only [if_neg hc] at h ⊢; exact ih _ _ _ h

theorem userLoop_user (u : Bytes) (hu : ∀ b ∈ u, b ≠ 0x3b ∧ b ≠ 0x40 ∧ b ≠ 0x3e ∧ b ≠ 0x20) (f : Nat) (rest : Bytes) :
    ∀ p : Parts, userLoop (u.length + f) (u ++ rest) .user p = userLoop f rest .user { p with user := p.user ++ u } := by
  induction u with
  | nil => intro p; simp
  | cons b u ih =>
    intro p
    obtain ⟨h1, h2, h3, h4⟩ := hu b (by simp)
    have h5 : ¬ (b = 0x3e ∨ (b = 0x20 ∧ Field.user ≠ .name)) := by simp [h3, h4]
    rw [List.length_cons, show u.length + 1 + f = (u.length + f) + 1 by omega, List.cons_append, userLoop]
    simp only [if_neg h1, if_neg h5, if_neg h2]
    rw [ih (fun x hx => hu x (by simp [hx]))]
    simp

theorem userLoop_host (u : Bytes) (hu : ∀ b ∈ u, b ≠ 0x3b ∧ b ≠ 0x3a ∧ b ≠ 0x3e ∧ b ≠ 0x20) (f : Nat) (rest : Bytes) :
    ∀ p : Parts, userLoop (u.length + f) (u ++ rest) .host p = userLoop f rest .host { p with host := p.host ++ u } := by
  induction u with
  | nil => intro p; simp
  | cons b u ih =>
    intro p
    obtain ⟨h1, h2, h3, h4⟩ := hu b (by simp)
    have h5 : ¬ (b = 0x3e ∨ (b = 0x20 ∧ Field.host ≠ .name)) := by simp [h3, h4]
    rw [List.length_cons, show u.length + 1 + f = (u.length + f) + 1 by omega, List.cons_append, userLoop]
    simp only [if_neg h1, if_neg h5, if_neg h2]
    rw [ih (fun x hx => hu x (by simp [hx]))]
    simp

theorem userLoop_port (u : Bytes) (hu : ∀ b ∈ u, b ≠ 0x3b ∧ b ≠ 0x3e ∧ b ≠ 0x20) (f : Nat) (rest : Bytes) :
    ∀ p : Parts, userLoop (u.length + f) (u ++ rest) .port p = userLoop f rest .port { p with port := p.port ++ u } := by
  induction u with
  | nil => intro p; simp
  | cons b u ih =>
    intro p
    obtain ⟨h1, h3, h4⟩ := hu b (by simp)
    have h5 : ¬ (b = 0x3e ∨ (b = 0x20 ∧ Field.port ≠ .name)) := by simp [h3, h4]
    rw [List.length_cons, show u.length + 1 + f = (u.length + f) + 1 by omega, List.cons_append, userLoop]
    simp only [if_neg h1, if_neg h5]
    rw [ih (fun x hx => hu x (by simp [hx]))]
    simp

/-- The text before `<` is skipped. -/
theorem userLoop_skip (x : Bytes) (hx : (0x3a : UInt8) ∉ x) (hs : (0x3b : UInt8) ∉ x) (f : Nat) (rest : Bytes)
    (p : Parts) (hp : p.uriType ≠ []) :
    ∃ g, f ≤ g ∧ userLoop (2 * x.length + f) (x ++ 0x3c :: rest) .base p = userLoop g (0x3c :: rest) .base p := by
  induction x generalizing f with
  | nil => exact ⟨f, Nat.le_refl _, by simp⟩
  | cons b x ih =>
    have hx' : (0x3a : UInt8) ∉ x := fun h => hx (by simp [h])
    have hs' : (0x3b : UInt8) ∉ x := fun h => hs (by simp [h])
    have h1 : ¬ b = 0x3b := fun e => hs (by simp [e])
    have hsch := scheme_none (b :: x) rest hx (by simp)
    rw [List.cons_append] at hsch
    rw [List.length_cons, show 2 * (x.length + 1) + f = (2 * x.length + (f + 1)) + 1 by omega, List.cons_append,
      userLoop, if_neg h1]
    by_cases h2 : b = 0x3e ∨ (b = 0x20 ∧ Field.base ≠ .name)
    · rw [if_pos h2]
      obtain ⟨g, hg, e⟩ := ih hx' hs' (f + 1)
      exact ⟨g, by omega, e⟩
    · rw [if_neg h2]
      simp only [hsch, Res.bind_ok]
      by_cases h3 : b = 0x22 ∨ p.uriType = []
      · rw [if_pos h3]
        have hb : b = 0x22 := h3.resolve_right hp
        subst hb
        rw [show 2 * x.length + (f + 1) = (2 * x.length + f) + 1 by omega, userLoop, if_neg (by decide),
          if_neg (by decide)]
        simp only [true_or, if_true]
        exact ih hx' hs' f
      · rw [if_neg h3]
        obtain ⟨g, hg, e⟩ := ih hx' hs' (f + 1)
        exact ⟨g, by omega, e⟩

/-- Well-formed parts of an address. -/
structure UserOk (s : User) : Prop where
  uriType : s.uriType ∈ schemes
  user : ∀ b ∈ s.user, b ≠ 0x3b ∧ b ≠ 0x40 ∧ b ≠ 0x3e ∧ b ≠ 0x20
  host : ∀ b ∈ s.host, b ≠ 0x3b ∧ b ≠ 0x3a ∧ b ≠ 0x3e ∧ b ≠ 0x20
  port : ∀ b ∈ s.port, b ≠ 0x3b ∧ b ≠ 0x3e ∧ b ≠ 0x20
  args : ArgMap s.args

theorem userLoop_addr (s : User) (h : UserOk s) (p : Parts) (hp : p.uriType ≠ []) :
    ∃ f, ∀ g, f ≤ g → f ≤ 2 * (b!"<" ++ s.uriType ++ b!":" ++ s.user ++ b!"@" ++ s.host ++ portBytes s.port ++ b!">" ++
      semicolonString s.args).length + 1 ∧
      userLoop g (b!"<" ++ s.uriType ++ b!":" ++ s.user ++ b!"@" ++ s.host ++ portBytes s.port ++ b!">" ++
      semicolonString s.args) .base p =
      .ok ({ p with uriType := s.uriType, user := p.user ++ s.user, host := p.host ++ s.host, port := p.port ++ s.port },
        semicolonString s.args) := by
  obtain ⟨b, r, hb, hb1, hb2, hb3⟩ := scheme_first h.uriType
  let tail := (0x3e : UInt8) :: semicolonString s.args
  have hall : b!"<" ++ s.uriType ++ b!":" ++ s.user ++ b!"@" ++ s.host ++ portBytes s.port ++ b!">" ++ semicolonString s.args
      = (0x3c : UInt8) :: (s.uriType ++ b!":" ++ (s.user ++ ((0x40 : UInt8) :: (s.host ++ (portBytes s.port ++ tail))))) := by
    simp [tail]
  have htail : ∀ (p : Parts) st, st ≠ .name → userLoop 2 tail st p = .ok (p, semicolonString s.args) := by
    intro p st hst
    show userLoop (1 + 1) ((0x3e : UInt8) :: semicolonString s.args) st p = _
    rw [userLoop_cons, if_neg (by decide), if_pos (Or.inl rfl)]
    exact userLoop_stop _ _ _ _
  have hend : ∀ p : Parts, userLoop ((portBytes s.port).length + 2) (portBytes s.port ++ tail) .host p =
      .ok ({ p with port := p.port ++ s.port }, semicolonString s.args) := by
    intro p
    by_cases hp : s.port.length > 0
    · simp only [portBytes, if_pos hp]
      rw [List.length_append, show (b!":").length + s.port.length + 2 = (s.port.length + 2) + 1 by simp; omega,
        List.append_assoc, List.singleton_append, userLoop]
      rw [if_neg (by decide), if_neg (by decide)]
      simp only [if_true]
      rw [userLoop_port s.port h.port, htail _ _ (by decide)]
    · have : s.port = [] := List.length_eq_zero_iff.1 (by omega)
      simp only [portBytes, this, List.length_nil, List.nil_append]
      rw [if_neg (by simp)]
      simp only [List.nil_append, List.append_nil]
      exact htail _ _ (by decide)
  refine ⟨1 + (1 + (s.user.length + (1 + (s.host.length + ((portBytes s.port).length + 2))))), fun g hg => ⟨?_, ?_⟩⟩
  · rw [hall, hb]; simp [tail]; omega
  have hloop : userLoop (1 + (1 + (s.user.length + (1 + (s.host.length + ((portBytes s.port).length + 2))))))
      ((0x3c : UInt8) :: (s.uriType ++ b!":" ++ (s.user ++ ((0x40 : UInt8) :: (s.host ++ (portBytes s.port ++ tail)))))) .base p =
      .ok ({ p with uriType := s.uriType, user := p.user ++ s.user, host := p.host ++ s.host, port := p.port ++ s.port },
        semicolonString s.args) := by
    have hsch := scheme_of h.uriType (s.user ++ ((0x40 : UInt8) :: (s.host ++ (portBytes s.port ++ tail))))
    have hlt : scheme ((0x3c : UInt8) :: (s.uriType ++ b!":" ++ (s.user ++ ((0x40 : UInt8) :: (s.host ++ (portBytes s.port ++ tail)))))) = .ok none := by
      rw [scheme_eq]; simp
    rw [Nat.add_comm 1, userLoop, if_neg (by decide), if_neg (by decide)]
    simp only [hlt, Res.bind_ok]
    rw [if_neg (by simp [hp])]
    rw [hb] at hsch ⊢
    rw [List.cons_append, List.cons_append] at hsch ⊢
    rw [Nat.add_comm 1, userLoop, if_neg hb1, if_neg (by simp [hb2, hb3])]
    simp only [hsch, Res.bind_ok]
    rw [userLoop_user _ h.user, Nat.add_comm 1, userLoop, if_neg (by decide), if_neg (by decide)]
    simp only [if_true]
    rw [userLoop_host _ h.host, hend]
  rw [hall, userLoop_mono _ _ _ _ _ hg (by rw [hloop]; simp), hloop]

end Verif.Sips
