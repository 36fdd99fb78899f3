import Verif.Lemmas.SipsParts
/-! # Lemmas: addresses with a display name, Via headers, and where the loops stop -/
namespace Verif.Sips
open Verif.Str Verif.Spec.Sips

/-! ## The display name -/

theorem nameBytes_plain (U : Unicode) (n : Bytes) (ha : ∀ b ∈ n, b < 0x80) (h1 : (0x3a : UInt8) ∉ n) (h2 : (0x3b : UInt8) ∉ n) :
    (0x3a : UInt8) ∉ nameBytes U n ∧ (0x3b : UInt8) ∉ nameBytes U n := by
  have hq : ∀ c ∈ [(0x3a : UInt8), 0x3b], ∀ b : UInt8, b < 0x80 → b ≠ c → c ∉ quoteByte b := by
    have : ∀ c ∈ [(0x3a : UInt8), 0x3b], ∀ k : Fin 128, UInt8.ofNat k.val ≠ c → c ∉ quoteByte (UInt8.ofNat k.val) := by
      decide +kernel
    intro c hc b hb hbc
    have h := this c hc ⟨b.toNat, hb⟩
    simp only [UInt8.ofNat_toNat] at h
    exact h hbc
  have key : ∀ c ∈ [(0x3a : UInt8), 0x3b], c ∉ n → c ∉ nameBytes U n := by
    intro c hc hn
    simp only [nameBytes]
    split
    · intro hm
      rw [List.mem_append] at hm
      rcases hm with hm | hm
      · split at hm
        · exact hn hm
        · simp only [quote, (isAscii_iff n).2 ha, if_true] at hm
          simp only [List.mem_append, List.mem_flatten, List.mem_map, List.mem_cons, List.not_mem_nil, or_false] at hm
          simp only [List.mem_cons, List.not_mem_nil, or_false] at hc
          rcases hm with (hm | ⟨l, ⟨x, hx, rfl⟩, hm⟩) | hm
          · subst hm; revert hc; decide
          · exact hq c (by simpa using hc) x (ha x hx) (fun e => hn (e ▸ hx)) hm
          · subst hm; revert hc; decide
      · simp only [List.mem_cons, List.not_mem_nil, or_false] at hm
        subst hm; revert hc; decide
    · simp
  exact ⟨key _ (by simp) h1, key _ (by simp) h2⟩

theorem newSIPUser_bytes (U : Unicode) (s : User) (h : UserOk s) (ha : ∀ b ∈ s.name, b < 0x80)
    (h1 : (0x3a : UInt8) ∉ s.name) (h2 : (0x3b : UInt8) ∉ s.name) :
    newSIPUser (s.bytes U) = .ok { s with name := [] } := by
  obtain ⟨n1, n2⟩ := nameBytes_plain U s.name ha h1 h2
  obtain ⟨f, hf⟩ := userLoop_addr s h {} (by simp)
  have hall : s.bytes U = nameBytes U s.name ++ (b!"<" ++ s.uriType ++ b!":" ++ s.user ++ b!"@" ++ s.host ++
      portBytes s.port ++ b!">" ++ semicolonString s.args) := by
    simp only [User.bytes, argsBytes_eq]; simp
  generalize hA : b!"<" ++ s.uriType ++ b!":" ++ s.user ++ b!"@" ++ s.host ++
      portBytes s.port ++ b!">" ++ semicolonString s.args = A at hf hall
  have hcons : ∃ A', A = 0x3c :: A' := by rw [← hA]; simp only [List.append_assoc, List.cons_append]; exact ⟨_, rfl⟩
  obtain ⟨A', hA'⟩ := hcons
  obtain ⟨g, hg, e⟩ := userLoop_skip (nameBytes U s.name) n1 n2 f A' {} (by simp)
  rw [← hA'] at e
  have e2 := (hf g hg).2
  rw [e2] at e
  have hle : 2 * (nameBytes U s.name).length + f ≤ 2 * (s.bytes U).length + 1 := by
    have := (hf g hg).1
    rw [hall, List.length_append]; omega
  simp only [newSIPUser]
  rw [userLoop_mono _ _ _ _ _ hle (by rw [hall, e]; simp), hall, e, Res.bind_ok]
  simp only
  rw [parseTail _ h.args]
  simp

/-! ## Where the loops stop -/

/-- The text from the first semicolon on. -/
def fromSemi (s : Bytes) : Bytes := s.dropWhile (fun b => b ≠ 0x3b)

theorem fromSemi_skip (x r : Bytes) (h : (0x3b : UInt8) ∉ x) : fromSemi (x ++ r) = fromSemi r := by
  induction x with
  | nil => rfl
  | cons b x ih =>
    have hb : b ≠ 0x3b := fun e => h (by simp [e])
    simp only [fromSemi, List.cons_append, List.dropWhile_cons, ne_eq, hb, not_false_eq_true, decide_true, if_true]
    exact ih (fun hm => h (by simp [hm]))

theorem fromSemi_cons {b : UInt8} (h : b ≠ 0x3b) (r : Bytes) : fromSemi (b :: r) = fromSemi r :=
  fromSemi_skip [b] r (by simpa using fun e => h e.symm)

theorem fromSemi_semi (r : Bytes) : fromSemi (0x3b :: r) = 0x3b :: r := by simp [fromSemi]

theorem scheme_fromSemi {rest t r : Bytes} (h : scheme rest = .ok (some (t, r))) :
    fromSemi rest = fromSemi r ∧ r.length < rest.length := by
  obtain ⟨ht, rfl⟩ := scheme_some h
  refine ⟨fromSemi_skip _ _ ?_, by simp; omega⟩
  revert ht
  simp only [schemes, List.mem_cons, List.not_mem_nil, or_false]
  rintro (rfl | rfl | rfl) <;> decide

theorem requestLoop_total : ∀ (f : Nat) (s : Bytes) (st : Field) (p : Parts), s.length < f →
    ∃ q, requestLoop f s st p = .ok (q, fromSemi s)
  | 0, s, st, p, h => by omega
  | f + 1, [], st, p, h => ⟨p, rfl⟩
  | f + 1, b :: r, st, p, h => by
    have ih := fun s st p => requestLoop_total f s st p
    have hr : r.length < f := by simp at h; omega
    rw [requestLoop_cons]
    by_cases hb : b = c!";"
    · rw [if_pos hb]; subst hb; exact ⟨p, by rw [fromSemi_semi]⟩
    rw [if_neg hb, fromSemi_cons hb]
    cases st with
    | base =>
      obtain ⟨o, ho⟩ := scheme_total (b :: r)
      simp only [ho, Res.bind_ok]
      cases o with
      | none => exact ih _ _ _ hr
      | some q =>
        obtain ⟨t, q⟩ := q
        obtain ⟨h1, h2⟩ := scheme_fromSemi ho
        rw [fromSemi_cons hb] at h1
        rw [h1]
        simp only [List.length_cons] at h2
        exact ih _ _ _ (by omega)
    | user => dsimp only; split <;> exact ih _ _ _ hr
    | host => dsimp only; split <;> exact ih _ _ _ hr
    | port => exact ih _ _ _ hr
    | name => exact ih _ _ _ hr

theorem userLoop_total : ∀ (f : Nat) (s : Bytes) (st : Field) (p : Parts), 1 ≤ f →
    2 * s.length + (if st = .name then 0 else 1) ≤ f → p.uriType ≠ [] → p.name = [] →
    (st = .name → s.head? = some 0x22) →
    ∃ q, userLoop f s st p = .ok (q, fromSemi s) ∧ q.name = []
  | 0, s, st, p, h, _, _, _, _ => by omega
  | f + 1, [], st, p, _, _, _, hn, _ => ⟨p, rfl, hn⟩
  | f + 1, b :: r, st, p, _, hf, hu, hn, hs => by
    have ih := fun s st p => userLoop_total f s st p
    have hr : 1 ≤ f ∧ 2 * r.length + 1 ≤ f := by
      simp only [List.length_cons] at hf; omega
    have hbase : ∀ p : Parts, ∀ st, st ≠ .name → p.uriType ≠ [] → p.name = [] → ∃ q, userLoop f r st p = .ok (q, fromSemi r) ∧ q.name = [] :=
      fun p st h1 h2 h3 => ih r st p hr.1 (by rw [if_neg h1]; exact hr.2) h2 h3 (fun e => absurd e h1)
    rw [userLoop_cons]
    by_cases hb : b = c!";"
    · rw [if_pos hb]; subst hb; exact ⟨p, by rw [fromSemi_semi], hn⟩
    rw [if_neg hb]
    by_cases hb2 : b = c!">" ∨ (b = c!" " ∧ st ≠ .name)
    · rw [if_pos hb2, fromSemi_cons hb]; exact hbase p _ (by decide) hu hn
    rw [if_neg hb2]
    cases st with
    | base =>
      obtain ⟨o, ho⟩ := scheme_total (b :: r)
      simp only [ho, Res.bind_ok]
      cases o with
      | none =>
        by_cases hc : b = c!"\"" ∨ p.uriType = []
        · simp only [if_pos hc]
          have hq := hc.resolve_right hu
          simp only [List.length_cons] at hf
          exact ih _ _ _ (by omega) (by simp at hf ⊢; omega) hu hn (fun _ => by rw [hq]; rfl)
        · simp only [if_neg hc]; rw [fromSemi_cons hb]; exact hbase p _ (by decide) hu hn
      | some q =>
        obtain ⟨t, q⟩ := q
        obtain ⟨h1, h2⟩ := scheme_fromSemi ho
        rw [h1]
        simp only [List.length_cons] at h2 hf
        have ht : t ≠ [] := by
          obtain ⟨x, y, hxy, -⟩ := scheme_first (scheme_some ho).1
          rw [hxy]; simp
        exact ih q .user _ (by omega) (by simp at hf ⊢; omega) ht hn (by simp)
    | user => rw [fromSemi_cons hb]; dsimp only; split <;> exact hbase _ _ (by decide) hu hn
    | host => rw [fromSemi_cons hb]; dsimp only; split <;> exact hbase _ _ (by decide) hu hn
    | port => rw [fromSemi_cons hb]; exact hbase _ _ (by decide) hu hn
    | name =>
      have := hs rfl
      simp only [List.head?_cons, Option.some.injEq] at this
      rw [fromSemi_cons hb]
      dsimp only
      rw [if_pos (Or.inl this)]
      exact hbase _ _ (by decide) hu hn

theorem fromSemi_cases (s : Bytes) :
    ((0x3b : UInt8) ∉ s ∧ fromSemi s = []) ∨ ∃ a r, s = a ++ 0x3b :: r ∧ (0x3b : UInt8) ∉ a ∧ fromSemi s = 0x3b :: r := by
  by_cases h : (0x3b : UInt8) ∈ s
  · obtain ⟨a, r, rfl, ha, -⟩ := index_split h
    exact Or.inr ⟨a, r, rfl, ha, by rw [fromSemi_skip _ _ ha, fromSemi_semi]⟩
  · left
    refine ⟨h, ?_⟩
    have := fromSemi_skip s [] h
    simpa [fromSemi] using this

theorem parseArgs_split (a r : Bytes) (h : (0x3b : UInt8) ∉ a) : parseArgs (a ++ 0x3b :: r) = parseArgsPairs r := by
  simp only [parseArgs, index_append h]
  rw [if_neg (by omega)]
  have := goSlice_suffix (a ++ [(0x3b : UInt8)]) r (a.length + 1) (by simp)
  rw [show ((a.length : Int) + 1) = ((a.length + 1 : Nat) : Int) from rfl]
  rw [List.append_assoc, List.singleton_append] at this
  rw [this, Res.bind_ok]

theorem parseArgs_none (s : Bytes) (h : (0x3b : UInt8) ∉ s) : parseArgs s = .ok [] := by
  simp [parseArgs, index_not_mem h]

theorem tail_args (s : Bytes) : (if 0 < (fromSemi s).length then parseArgs (fromSemi s) else .ok []) = parseArgs s := by
  rcases fromSemi_cases s with ⟨h, e⟩ | ⟨a, r, rfl, ha, e⟩
  · rw [e, parseArgs_none s h]; rfl
  · rw [e, if_pos (by simp), parseArgs_split a r ha]
    exact parseArgs_split [] r (by simp)

/-- `NewSIPRequest` succeeds exactly when its arguments parse. -/
theorem newSIPRequest_total (s : Bytes) : ∃ q : Parts, newSIPRequest s =
    (parseArgs s >>= fun a => .ok ⟨q.uriType, q.user, q.host, q.port, a⟩) := by
  obtain ⟨q, hq⟩ := requestLoop_total (s.length + 1) s .base {} (by omega)
  refine ⟨q, ?_⟩
  simp only [newSIPRequest, hq, Res.bind_ok, tail_args]

/-- `NewSIPUser` succeeds exactly when its arguments parse, and then the name is empty. -/
theorem newSIPUser_total (s : Bytes) : ∃ q : Parts, newSIPUser s =
    (parseArgs s >>= fun a => .ok ⟨q.uriType, [], q.user, q.host, q.port, a⟩) := by
  obtain ⟨q, hq, hn⟩ := userLoop_total (2 * s.length + 1) s .base {} (by omega) (by simp) (by simp) rfl (by simp)
  refine ⟨q, ?_⟩
  simp only [newSIPUser, hq, Res.bind_ok, tail_args, hn]
  simp

/-! ## Via -/

theorem viaLoop_cons (f : Nat) (b : UInt8) (r : Bytes) (st : Field) (a : Via) :
    viaLoop (f + 1) (b :: r) st a =
    if b = c!";" then .ok (a, b :: r)
    else if b = c!" " then viaLoop f r st a
    else match st with
      | .base => substring (b :: r) 0 8 >>= fun s8 =>
        if s8 = b!"SIP/2.0/" then
          viaTrans a.trans ((b :: r).drop 8) >>= fun x => viaLoop f x.2 .host { a with trans := x.1 }
        else viaLoop f r .base a
      | .host =>
        if b = c!":" then viaLoop f r .port a
        else viaLoop f r .host { a with host := a.host ++ [b] }
      | .port => viaLoop f r .port { a with port := a.port ++ [b] }
      | .name => viaLoop f r .name a
      | .user => viaLoop f r .user a := by
  cases st <;> rfl

/-- The transports recognised. -/
def transports : List Bytes := [b!"UDP", b!"TCP", b!"TLS", b!"SCTP"]

theorem viaTrans_total (old rest : Bytes) : ∃ t n, viaTrans old rest = .ok (t, rest.drop n) := by
  simp only [viaTrans]
  rw [show (3 : Int) = ((3 : Nat) : Int) from rfl, substring_take, Res.bind_ok]
  split
  · exact ⟨_, 3, rfl⟩
  · rw [show (4 : Int) = ((4 : Nat) : Int) from rfl, substring_take, Res.bind_ok]
    split
    · exact ⟨_, 4, rfl⟩
    · exact ⟨_, 1, rfl⟩

theorem viaTrans_known {t : Bytes} (h : t ∈ transports) (old r : Bytes) : viaTrans old (t ++ r) = .ok (t, r) := by
  simp only [viaTrans]
  rw [show (3 : Int) = ((3 : Nat) : Int) from rfl, substring_take, Res.bind_ok,
    show (4 : Int) = ((4 : Nat) : Int) from rfl, substring_take, Res.bind_ok]
  simp only [transports, List.mem_cons, List.not_mem_nil, or_false] at h
  rcases h with rfl | rfl | rfl | rfl <;> simp

theorem viaLoop_total : ∀ (f : Nat) (s : Bytes) (st : Field) (p : Via), s.length < f →
    ∃ q n, viaLoop f s st p = .ok (q, fromSemi (s.drop n))
  | 0, s, st, p, h => by omega
  | f + 1, [], st, p, h => ⟨p, 0, rfl⟩
  | f + 1, b :: r, st, p, h => by
    have ih := fun s st p => viaLoop_total f s st p
    have hr : r.length < f := by simp at h; omega
    have hstep : ∀ st p, ∃ q n, viaLoop f r st p = .ok (q, fromSemi ((b :: r).drop n)) := by
      intro st p
      obtain ⟨q, n, e⟩ := ih r st p hr
      exact ⟨q, n + 1, e⟩
    rw [viaLoop_cons]
    by_cases hb : b = c!";"
    · rw [if_pos hb]; subst hb; exact ⟨p, 0, by rw [List.drop_zero, fromSemi_semi]⟩
    rw [if_neg hb]
    by_cases hb2 : b = c!" "
    · rw [if_pos hb2]; exact hstep _ _
    rw [if_neg hb2]
    cases st with
    | base =>
      rw [show (8 : Int) = ((8 : Nat) : Int) from rfl]
      simp only [substring_take, Res.bind_ok]
      split
      · obtain ⟨t, n, e⟩ := viaTrans_total p.trans ((b :: r).drop 8)
        rw [e, Res.bind_ok, List.drop_drop]
        obtain ⟨q, m, e⟩ := ih ((b :: r).drop (8 + n)) .host { p with trans := t }
          (by rw [List.length_drop]; simp only [List.length_cons]; omega)
        rw [List.drop_drop] at e
        exact ⟨q, _, e⟩
      · exact hstep _ _
    | user => exact hstep _ _
    | host => dsimp only; split <;> exact hstep _ _
    | port => exact hstep _ _
    | name => exact hstep _ _

/-- `NewSIPVia` succeeds exactly when the arguments in a suffix of the text parse. -/
theorem newSIPVia_total (s : Bytes) : ∃ (q : Via) (n : Nat), newSIPVia s =
    (parseArgs (s.drop n) >>= fun a => .ok { q with args := a }) := by
  obtain ⟨q, n, hq⟩ := viaLoop_total (s.length + 1) s .base ⟨[], [], [], []⟩ (by omega)
  refine ⟨q, n, ?_⟩
  simp only [newSIPVia, hq, Res.bind_ok, tail_args]

/-- Well-formed parts of a Via header. -/
structure ViaOk (s : Via) : Prop where
  trans : s.trans ∈ transports
  host : ∀ b ∈ s.host, b ≠ 0x3b ∧ b ≠ 0x3a ∧ b ≠ 0x20
  port : ∀ b ∈ s.port, b ≠ 0x3b ∧ b ≠ 0x20
  args : ArgMap s.args

theorem viaLoop_stop (a : Args) (f : Nat) (st : Field) (p : Via) :
    viaLoop (f + 1) (semicolonString a) st p = .ok (p, semicolonString a) := by
  rcases semi_cases a with h | ⟨r, h⟩ <;> rw [h] <;> simp [viaLoop]

theorem viaLoop_host (u : Bytes) (hu : ∀ b ∈ u, b ≠ 0x3b ∧ b ≠ 0x3a ∧ b ≠ 0x20) (f : Nat) (rest : Bytes) :
    ∀ p : Via, viaLoop (u.length + f) (u ++ rest) .host p = viaLoop f rest .host { p with host := p.host ++ u } := by
  induction u with
  | nil => intro p; simp
  | cons b u ih =>
    intro p
    obtain ⟨h1, h2, h3⟩ := hu b (by simp)
    rw [List.length_cons, show u.length + 1 + f = (u.length + f) + 1 by omega, List.cons_append, viaLoop_cons]
    simp only [if_neg h1, if_neg h2, if_neg h3]
    rw [ih (fun x hx => hu x (by simp [hx]))]
    simp

theorem viaLoop_port (u : Bytes) (hu : ∀ b ∈ u, b ≠ 0x3b ∧ b ≠ 0x20) (f : Nat) (rest : Bytes) :
    ∀ p : Via, viaLoop (u.length + f) (u ++ rest) .port p = viaLoop f rest .port { p with port := p.port ++ u } := by
  induction u with
  | nil => intro p; simp
  | cons b u ih =>
    intro p
    obtain ⟨h1, h3⟩ := hu b (by simp)
    rw [List.length_cons, show u.length + 1 + f = (u.length + f) + 1 by omega, List.cons_append, viaLoop_cons]
    simp only [if_neg h1, if_neg h3]
    rw [ih (fun x hx => hu x (by simp [hx]))]
    simp

theorem viaLoop_mono : ∀ (f : Nat) (s : Bytes) (st : Field) (p : Via) (g : Nat), f ≤ g →
    viaLoop f s st p ≠ .diverge → viaLoop g s st p = viaLoop f s st p
  | 0, _, _, _, _, _, h => absurd rfl h
  | f + 1, s, st, p, 0, hg, _ => by omega
  | f + 1, [], st, p, g + 1, _, _ => rfl
  | f + 1, b :: r, st, p, g + 1, hg, h => by
    have ih := fun s st p => viaLoop_mono f s st p g (by omega)
    rw [viaLoop_cons] at h
    rw [viaLoop_cons, viaLoop_cons]
    by_cases hb : b = c!";"
    · rw [if_pos hb, if_pos hb]
    · rw [if_neg hb] at h ⊢
      rw [if_neg hb]
      by_cases hb2 : b = c!" "
      · rw [if_pos hb2] at h ⊢
        rw [if_pos hb2]; exact ih _ _ _ h
      rw [if_neg hb2] at h ⊢
      rw [if_neg hb2]
      cases st with
      | base =>
        rw [show (8 : Int) = ((8 : Nat) : Int) from rfl] at h ⊢
        simp only [substring_take, Res.bind_ok] at h ⊢
        by_cases hc : (b :: r).take 8 = b!"SIP/2.0/"
        · obtain ⟨t, n, e⟩ := viaTrans_total p.trans ((b :: r).drop 8)
          simp only [if_pos hc, e, Res.bind_ok] at h ⊢
          exact ih _ _ _ h
        · simp only [if_neg hc] at h ⊢; exact ih _ _ _ h
      | host =>
        by_cases hc : b = c!":"
        · simp only [if_pos hc] at h ⊢; exact ih _ _ _ h
        · simp only [if_neg hc] at h ⊢; exact ih _ _ _ h
      | port => exact ih _ _ _ h
      | name => exact ih _ _ _ h
      | user => exact ih _ _ _ h

theorem newSIPVia_bytes (s : Via) (h : ViaOk s) : newSIPVia s.bytes = .ok s := by
  have hall : s.bytes = b!"SIP/2.0/" ++ (s.trans ++ ((0x20 : UInt8) :: (s.host ++ (portBytes s.port ++ semicolonString s.args)))) := by
    simp only [Via.bytes, argsBytes_eq, versionString]
    simp
  have hend : ∀ p : Via, viaLoop ((portBytes s.port).length + 1) (portBytes s.port ++ semicolonString s.args) .host p =
      .ok ({ p with port := p.port ++ s.port }, semicolonString s.args) := by
    intro p
    by_cases hp : s.port.length > 0
    · simp only [portBytes, if_pos hp]
      rw [List.length_append, show (b!":").length + s.port.length + 1 = (s.port.length + 1) + 1 by simp; omega,
        List.append_assoc, List.singleton_append, viaLoop_cons]
      rw [if_neg (by decide), if_neg (by decide)]
      simp only [if_true]
      rw [viaLoop_port s.port h.port, viaLoop_stop]
    · have : s.port = [] := List.length_eq_zero_iff.1 (by omega)
      simp only [portBytes, this, List.length_nil, List.nil_append]
      rw [if_neg (by simp)]
      simp only [List.nil_append, List.append_nil]
      exact viaLoop_stop _ _ _ _
  have hloop : viaLoop ((1 + (1 + (s.host.length + ((portBytes s.port).length + 1))))) s.bytes .base ⟨[], [], [], []⟩ =
      .ok (⟨s.trans, s.host, s.port, []⟩, semicolonString s.args) := by
    rw [hall, Nat.add_comm 1]
    simp only [List.cons_append]
    rw [viaLoop_cons, if_neg (by decide), if_neg (by decide)]
    rw [show (8 : Int) = ((8 : Nat) : Int) from rfl]
    simp only [substring_take, Res.bind_ok]
    simp only [List.take_succ_cons, List.take_zero, List.drop_succ_cons, List.drop_zero, List.nil_append, if_true]
    rw [viaTrans_known h.trans, Res.bind_ok, Nat.add_comm 1, viaLoop_cons, if_neg (by decide)]
    simp only [if_true]
    rw [viaLoop_host _ h.host, hend]
    simp
  have hlen : 1 + (1 + (s.host.length + ((portBytes s.port).length + 1))) ≤ s.bytes.length + 1 := by
    rw [hall]; simp; omega
  simp only [newSIPVia]
  rw [viaLoop_mono _ _ _ _ _ hlen (by rw [hloop]; simp), hloop, Res.bind_ok]
  simp only
  rw [parseTail _ h.args]
  rfl

end Verif.Sips
