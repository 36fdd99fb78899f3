import Verif.Model.Amf0
/-! # Reasoning principles for the AMF codecs -/
namespace Verif

namespace GoM
variable {σ α β γ : Type}

theorem bind_assoc' (m : GoM σ α) (f : α → GoM σ β) (g : β → GoM σ γ) :
    (m >>= f) >>= g = m >>= fun a => f a >>= g := by
  funext s
  simp only [bind_apply]
  rcases m s with ⟨r, s'⟩
  cases r <;> rfl

theorem pure_bind' (a : α) (f : α → GoM σ β) : (pure a >>= f) = f a := rfl
theorem lift_ok_bind (a : α) (f : α → GoM σ β) : (lift (.ok a) >>= f) = f a := rfl
theorem lift_ok (a : α) : (lift (.ok a) : GoM σ α) = pure a := rfl
theorem lift_err (e : Err) : (lift (.err e) : GoM σ α) = fail e := rfl
theorem bind_pure' (m : GoM σ α) : (m >>= fun a => pure a) = m := by
  funext s
  simp only [bind_apply]
  rcases m s with ⟨r, s'⟩
  cases r <;> rfl

/-- `m'` agrees with `m` wherever `m` does not run out of fuel. -/
def Le (m m' : GoM σ α) : Prop := ∀ s, (m s).1 ≠ .diverge → m' s = m s

theorem Le.rfl' (m : GoM σ α) : Le m m := fun _ _ => rfl
theorem Le.trans {m m' m'' : GoM σ α} (h : Le m m') (h' : Le m' m'') : Le m m'' := fun s hs => by
  have h1 := h s hs
  rw [h' s (by rw [h1]; exact hs), h1]
theorem Le.diverge (m : GoM σ α) : Le diverge m := fun s h => absurd rfl h
theorem Le.bind {m m' : GoM σ α} {f f' : α → GoM σ β} (hm : Le m m') (hf : ∀ a, Le (f a) (f' a)) :
    Le (m >>= f) (m' >>= f') := by
  intro s hs
  have h1 := hm s
  simp only [bind_apply] at hs ⊢
  rcases h : m s with ⟨r, s'⟩
  rw [h] at hs h1
  cases r with
  | ok a => rw [h1 (by simp)]; exact hf a s' hs
  | err e => rw [h1 (by simp)]
  | panic => rw [h1 (by simp)]
  | diverge => exact absurd rfl hs
theorem Le.ite {p : Prop} [Decidable p] {m m' k k' : GoM σ α} (h1 : Le m m') (h2 : Le k k') :
    Le (if p then m else k) (if p then m' else k') := by
  by_cases h : p
  · simpa [h] using h1
  · simpa [h] using h2
theorem Le.bind_right (m : GoM σ α) {f f' : α → GoM σ β} (hf : ∀ a, Le (f a) (f' a)) :
    Le (m >>= f) (m >>= f') := Le.bind (Le.rfl' m) hf
end GoM

/-! ## Encoders as chunk sequences -/

/-- Write the chunks one after the other. -/
def runChunks : List Bytes → GoM Sink Unit
  | [] => pure ()
  | c :: cs => do
    Sink.write c
    runChunks cs

theorem runChunks_append (cs ds : List Bytes) :
    runChunks (cs ++ ds) = (runChunks cs >>= fun _ => runChunks ds) := by
  induction cs with
  | nil => rfl
  | cons c cs ih => simp only [List.cons_append, runChunks, ih, GoM.bind_assoc']

/-- `m` writes the chunks `cs` (stopping at the first failing write) and then ends with `r`. -/
def Emits {α} (m : GoM Sink α) (cs : List Bytes) (r : Res α) : Prop :=
  m = (runChunks cs >>= fun _ => GoM.lift r)

namespace Emits
variable {α β : Type}

theorem bind {m : GoM Sink α} {f : α → GoM Sink β} {cs ds a r}
    (h : Emits m cs (.ok a)) (h' : Emits (f a) ds r) : Emits (m >>= f) (cs ++ ds) r := by
  unfold Emits at *
  rw [h, runChunks_append]
  simp only [GoM.bind_assoc', GoM.lift_ok_bind, h']

theorem bind_err {m : GoM Sink α} {f : α → GoM Sink β} {cs e}
    (h : Emits m cs (.err e)) : Emits (m >>= f) cs (.err e) := by
  unfold Emits at *
  rw [h]
  simp only [GoM.bind_assoc']
  rfl

theorem write (b : Bytes) : Emits (Sink.write b) [b] (.ok ()) := by
  funext w
  simp only [runChunks, GoM.bind_apply]
  rcases Sink.write b w with ⟨r, s⟩
  cases r <;> rfl

theorem pure (a : α) : Emits (Pure.pure a : GoM Sink α) [] (.ok a) := rfl
theorem fail (e : Err) : Emits (GoM.fail e : GoM Sink α) [] (.err e) := rfl

theorem writeByte (b : UInt8) : Emits (Amf.writeByte b) [[b]] (.ok ()) := write [b]

theorem map {m : GoM Sink α} {cs a} {g : α → β} (h : Emits m cs (.ok a)) :
    Emits (m >>= fun x => Pure.pure (g x)) cs (.ok (g a)) := by
  have := h.bind (f := fun x => Pure.pure (g x)) (pure (g a))
  simpa using this

theorem congr {m : GoM Sink α} {cs cs' r r'} (h : Emits m cs r) (hc : cs = cs') (hr : r = r') :
    Emits m cs' r' := hc ▸ hr ▸ h
end Emits

theorem runChunks_reliable (cs : List Bytes) (w : Sink) (hw : w.Reliable) :
    runChunks cs w = (.ok (), { w with out := w.out ++ cs.flatten, calls := w.calls + cs.length }) := by
  induction cs generalizing w with
  | nil => simp [runChunks]
  | cons c cs ih =>
    have h : Sink.write c w = (.ok (), { w with out := w.out ++ c, calls := w.calls + 1 }) := by
      simp [Sink.write, hw w.calls]
    simp only [runChunks, GoM.bind_apply, h]
    refine (ih { w with out := w.out ++ c, calls := w.calls + 1 } (fun k => hw k)).trans ?_
    simp [Nat.add_assoc, Nat.add_comm, Nat.add_left_comm]

/-- On an arbitrary sink a chunk sequence writes a prefix of its bytes, all of them exactly when no write
failed; otherwise the writer's error is reported. -/
theorem runChunks_any (cs : List Bytes) (w : Sink) :
    (runChunks cs w).2.plan = w.plan ∧
    ∃ p q, cs.flatten = p ++ q ∧ (runChunks cs w).2.out = w.out ++ p ∧
      ((runChunks cs w).1 = .ok () ∧ q = [] ∨ (runChunks cs w).1 = .err .writer) := by
  induction cs generalizing w with
  | nil => exact ⟨rfl, [], [], by simp [runChunks]⟩
  | cons c cs ih =>
    simp only [runChunks, GoM.bind_apply, Sink.write]
    cases hp : w.plan w.calls with
    | none =>
      obtain ⟨h1, p, q, h2, h3, h4⟩ := ih { w with out := w.out ++ c, calls := w.calls + 1 }
      exact ⟨h1, c ++ p, q, by simp [h2], by simp [h3], h4⟩
    | some n =>
      exact ⟨rfl, c.take n, c.drop n ++ cs.flatten, by simp [← List.append_assoc, List.take_append_drop],
        by simp, Or.inr rfl⟩

/-- A chunk sequence ends with the writer's error exactly if one of its `Write` calls failed. -/
theorem runChunks_err_iff (cs : List Bytes) (w : Sink) :
    (runChunks cs w).1 = .err .writer ↔ ∃ k, w.calls ≤ k ∧ k < (runChunks cs w).2.calls ∧ w.plan k ≠ none := by
  induction cs generalizing w with
  | nil => simp [runChunks]; omega
  | cons c cs ih =>
    simp only [runChunks, GoM.bind_apply, Sink.write]
    cases hp : w.plan w.calls with
    | some n =>
      simp only [true_iff]
      exact ⟨w.calls, Nat.le_refl _, Nat.lt_succ_self _, by rw [hp]; simp⟩
    | none =>
      simp only
      rw [ih { w with out := w.out ++ c, calls := w.calls + 1 }]
      constructor
      · rintro ⟨k, h1, h2, h3⟩
        exact ⟨k, Nat.le_of_succ_le h1, h2, h3⟩
      · rintro ⟨k, h1, h2, h3⟩
        refine ⟨k, ?_, h2, h3⟩
        show w.calls + 1 ≤ k
        rcases Nat.lt_or_eq_of_le h1 with h | h
        · exact h
        · rw [← h, hp] at h3; simp at h3

theorem Emits.reliable {α} {m : GoM Sink α} {cs r} (h : Emits m cs r) (w : Sink) (hw : w.Reliable) :
    m w = (r, { w with out := w.out ++ cs.flatten, calls := w.calls + cs.length }) := by
  rw [h]
  simp only [GoM.bind_apply, runChunks_reliable cs w hw]
  rfl

theorem Sink.mem_reliable : Sink.mem.Reliable := fun _ => rfl

theorem Emits.mem {α} {m : GoM Sink α} {cs r} (h : Emits m cs r) :
    (m Sink.mem).1 = r ∧ (m Sink.mem).2.out = cs.flatten := by
  rw [h.reliable _ Sink.mem_reliable]
  exact ⟨rfl, by simp [Sink.mem]⟩

/-- If `m` succeeds, its count is `k` plus the number of bytes it wrote (on a sink that accepts everything). -/
def Cnt (k : Nat) (m : GoM Sink Nat) : Prop :=
  ∃ cs r, Emits m cs r ∧ ((∃ e, r = .err e) ∨ r = .ok (k + cs.flatten.length))

namespace Cnt
variable {k : Nat}

theorem of_emits {m : GoM Sink Nat} {cs n} (h : Emits m cs (.ok n)) (hn : n = k + cs.flatten.length) : Cnt k m :=
  ⟨cs, _, h, .inr (by rw [hn])⟩
theorem pure : Cnt k (Pure.pure k) := of_emits (Emits.pure k) (by simp)
theorem fail (e : Err) : Cnt k (GoM.fail e) := ⟨[], _, Emits.fail e, .inl ⟨e, rfl⟩⟩
theorem write {b : Bytes} {f : Unit → GoM Sink Nat} (h : Cnt (k + b.length) (f ())) :
    Cnt k (Sink.write b >>= f) := by
  obtain ⟨cs, r, h1, h2⟩ := h
  refine ⟨_, r, (Emits.write b).bind h1, ?_⟩
  rcases h2 with h2 | h2
  · exact .inl h2
  · right; rw [h2]; simp [Nat.add_assoc]
theorem bind {m : GoM Sink Nat} {f : Nat → GoM Sink Nat} (h : Cnt k m) (hf : ∀ n, Cnt n (f n)) : Cnt k (m >>= f) := by
  obtain ⟨cs, r, h1, h2⟩ := h
  rcases h2 with ⟨e, rfl⟩ | rfl
  · exact ⟨cs, _, h1.bind_err, .inl ⟨e, rfl⟩⟩
  · obtain ⟨ds, r, h3, h4⟩ := hf (k + cs.flatten.length)
    refine ⟨_, r, h1.bind h3, ?_⟩
    rcases h4 with h4 | h4
    · exact .inl h4
    · right; rw [h4]; simp [Nat.add_assoc]
/-- `m` counted from 0, continued with anything counted from `k` plus that. -/
theorem add {m : GoM Sink Nat} {f : Nat → GoM Sink Nat} (h : Cnt 0 m) (hf : ∀ n, Cnt (k + n) (f n)) : Cnt k (m >>= f) := by
  obtain ⟨cs, r, h1, h2⟩ := h
  rcases h2 with ⟨e, rfl⟩ | rfl
  · exact ⟨cs, _, h1.bind_err, .inl ⟨e, rfl⟩⟩
  · obtain ⟨ds, r, h3, h4⟩ := hf (0 + cs.flatten.length)
    refine ⟨_, r, h1.bind h3, ?_⟩
    rcases h4 with h4 | h4
    · exact .inl h4
    · right; rw [h4]; simp [Nat.add_assoc]
theorem congr {m : GoM Sink Nat} {k'} (h : Cnt k m) (hk : k = k') : Cnt k' m := hk ▸ h
theorem result {m : GoM Sink Nat} (h : Cnt k m) (w : Sink) (hw : w.Reliable) (n : Nat) (hn : (m w).1 = .ok n) :
    (m w).2.out.length + k = w.out.length + n := by
  obtain ⟨cs, r, h1, h2⟩ := h
  rw [h1.reliable w hw] at hn ⊢
  rcases h2 with ⟨e, rfl⟩ | rfl
  · simp at hn
  · simp at hn ⊢; omega
end Cnt

namespace Amf

/-! ## Decoders as parsers of exact byte strings -/

/-- The decoder `m` reads exactly the bytes `a` and yields `x`, whatever follows, and (if `r`) fails on every
proper prefix of `a` and, on a reader that returns short reads, yields `x` or fails.  `b` marks parsers whose last read is a zero-byte read: on a reader that reports EOF for
those at the end of the data they fail there. -/
structure Codec {α} (r b : Bool) (m : GoM St α) (a : Bytes) (x : α) : Prop where
  parse : ∀ s rest, s.Contig → s.data = a ++ rest → (b = true → s.eofOnEmpty = true → rest ≠ []) →
    ∃ s', m s = (.ok x, s') ∧ s'.data = rest ∧ s'.eofOnEmpty = s.eofOnEmpty ∧ s'.lim = s.lim
  reject : r = true → ∀ s p q, s.Contig → s.data = p → a = p ++ q → (q ≠ [] ∨ (b = true ∧ s.eofOnEmpty = true)) →
    ∃ e s', m s = (.err e, s')
  frag : r = true → ∀ s rest, s.data = a ++ rest → (∃ e s', m s = (.err e, s')) ∨
    ∃ s', m s = (.ok x, s') ∧ s'.data = rest ∧ s'.eofOnEmpty = s.eofOnEmpty ∧ s'.lim = s.lim

theorem append_eq_append_split {a c p q : Bytes} (h : a ++ c = p ++ q) :
    (∃ p', p = a ++ p' ∧ c = p' ++ q) ∨ (∃ q', q' ≠ [] ∧ a = p ++ q' ∧ q = q' ++ c) := by
  rcases List.append_eq_append_iff.mp h with ⟨p', h1, h2⟩ | ⟨q', h1, h2⟩
  · exact .inl ⟨p', h1, h2⟩
  · by_cases hq : q' = []
    · subst hq
      exact .inl ⟨[], by simpa using h1.symm, by simpa using h2.symm⟩
    · exact .inr ⟨q', hq, h1, h2⟩

namespace Codec
variable {α β : Type} {r : Bool}

theorem bind {b1 b2 b : Bool} {m : GoM St α} {f : α → GoM St β} {a c x y}
    (h1 : Codec r b1 m a x) (h2 : Codec r b2 (f x) c y) (hb : b = if c = [] then b1 || b2 else b2) :
    Codec r b (m >>= f) (a ++ c) y where
  parse s rest hs hd hr := by
    obtain ⟨s1, e1, d1, f1, l1⟩ := h1.parse s (c ++ rest) hs (by simpa using hd) (by
      intro hb1 he hc
      have : c = [] ∧ rest = [] := by simpa using hc
      exact hr (by simp [hb, this.1, hb1]) he this.2)
    obtain ⟨s2, e2, d2, f2, l2⟩ := h2.parse s1 rest (by unfold St.Contig; rw [l1]; exact hs) d1 (by
      intro hb2 he
      exact hr (by simp [hb, hb2]) (by rw [← f1]; exact he))
    exact ⟨s2, by simp only [GoM.bind_apply, e1, e2], d2, by rw [f2, f1], by rw [l2, l1]⟩
  reject hr s p q hs hd hpq hq := by
    rcases append_eq_append_split hpq with ⟨p', rfl, hc⟩ | ⟨q', hq', ha, rfl⟩
    · by_cases hend : b1 = true ∧ s.eofOnEmpty = true ∧ p' = []
      · obtain ⟨e, s', h⟩ := h1.reject hr s a [] hs (by simpa [hend.2.2] using hd) (by simp)
          (.inr ⟨hend.1, hend.2.1⟩)
        exact ⟨e, s', by simp only [GoM.bind_apply, h]⟩
      · obtain ⟨s1, e1, d1, f1, l1⟩ := h1.parse s p' hs hd (fun hb he hp => hend ⟨hb, he, hp⟩)
        obtain ⟨e, s', h⟩ := h2.reject hr s1 p' q (by unfold St.Contig; rw [l1]; exact hs) d1 hc (by
          rcases hq with hq | ⟨hb', he⟩
          · exact .inl hq
          · by_cases hqe : q = []
            · right
              refine ⟨?_, by rw [f1]; exact he⟩
              subst hqe
              by_cases hcn : c = []
              · have hp' : p' = [] := by simpa [hcn] using hc.symm
                have : b1 = false := by
                  cases hb1 : b1
                  · rfl
                  · exact absurd ⟨hb1, he, hp'⟩ hend
                simpa [hb, hcn, this] using hb'
              · simpa [hb, hcn] using hb'
            · exact .inl hqe)
        exact ⟨e, s', by simp only [GoM.bind_apply, e1, h]⟩
    · obtain ⟨e, s', h⟩ := h1.reject hr s p q' hs hd ha (.inl hq')
      exact ⟨e, s', by simp only [GoM.bind_apply, h]⟩
  frag hr s rest hd := by
    rcases h1.frag hr s (c ++ rest) (by simpa using hd) with ⟨e, s1, h⟩ | ⟨s1, e1, d1, f1, l1⟩
    · exact .inl ⟨e, s1, by simp only [GoM.bind_apply, h]⟩
    · rcases h2.frag hr s1 rest d1 with ⟨e, s2, h⟩ | ⟨s2, e2, d2, f2, l2⟩
      · exact .inl ⟨e, s2, by simp only [GoM.bind_apply, e1, h]⟩
      · exact .inr ⟨s2, by simp only [GoM.bind_apply, e1, e2], d2, by rw [f2, f1], by rw [l2, l1]⟩

/-- Sequencing when the second part is never empty. -/
theorem bind_ne {b1 b2 : Bool} {m : GoM St α} {f : α → GoM St β} {a c x y}
    (h1 : Codec r b1 m a x) (h2 : Codec r b2 (f x) c y) (hc : c ≠ []) : Codec r b2 (m >>= f) (a ++ c) y :=
  bind h1 h2 (by simp [hc])

/-- Sequencing when the first part does not end with an empty read. -/
theorem bind_f {b2 : Bool} {m : GoM St α} {f : α → GoM St β} {a c x y}
    (h1 : Codec r false m a x) (h2 : Codec r b2 (f x) c y) : Codec r b2 (m >>= f) (a ++ c) y :=
  bind h1 h2 (by simp)

theorem pure (x : α) : Codec r false (Pure.pure x : GoM St α) [] x where
  parse s rest _ hd _ := ⟨s, rfl, by simpa using hd, rfl, rfl⟩
  frag _ s rest hd := .inr ⟨s, rfl, by simpa using hd, rfl, rfl⟩
  reject hr s p q _ _ h hq := by
    have := List.append_eq_nil_iff.mp h.symm
    simp [this.2] at hq

/-- Post-processing the result. -/
theorem map {b : Bool} {m : GoM St α} {a x} (h : Codec r b m a x) (f : α → β) :
    Codec r b (m >>= fun v => Pure.pure (f v)) a (f x) := by
  have := h.bind (f := fun v => Pure.pure (f v)) (b := b) (pure (f x)) (by simp)
  simpa using this

theorem modify (f : St → St) (h : ∀ s, (f s).data = s.data ∧ (f s).eofOnEmpty = s.eofOnEmpty ∧ (f s).lim = s.lim) :
    Codec r false (GoM.modify f) [] () where
  parse s rest _ hd _ := ⟨f s, rfl, by rw [(h s).1]; simpa using hd, (h s).2.1, (h s).2.2⟩
  frag _ s rest hd := .inr ⟨f s, rfl, by rw [(h s).1]; simpa using hd, (h s).2.1, (h s).2.2⟩
  reject hr s p q _ _ h hq := by
    have := List.append_eq_nil_iff.mp h.symm
    simp [this.2] at hq

theorem congr {b b' : Bool} {m : GoM St α} {a a' x x'} (h : Codec r b m a x) (hb : b = b') (ha : a = a')
    (hx : x = x') : Codec r b' m a' x' := by subst hb ha hx; exact h

theorem readFull {n : Nat} (b : Bytes) (hn : b.length = n) (h0 : 0 < n) : Codec r false (Amf.readFull n) b b where
  parse s rest hs hd _ := by
    have hne : s.data ≠ [] := by
      intro h
      rw [h] at hd
      have := List.append_eq_nil_iff.mp hd.symm
      simp [this.1] at hn
      omega
    have hl : ¬ s.data.length < n := by rw [hd]; simp; omega
    refine ⟨{ s with data := rest }, ?_, rfl, rfl, rfl⟩
    simp only [Amf.readFull, List.isEmpty_iff, hne, if_false, hl]
    rw [hd, List.take_append_of_le_length (by omega), List.drop_append_of_le_length (by omega)]
    simp [← hn]
  reject hr s p q _ hd ha hq := by
    have hq' : q ≠ [] := by simpa using hq
    unfold Amf.readFull
    by_cases he : s.data = []
    · simp [he]
    · have hl : s.data.length < n := by
        rw [hd, ← hn, ha]
        have := List.length_pos_iff.mpr hq'
        simp; omega
      simp [he, hl]
  frag _ s rest hd := by
    have hne : s.data ≠ [] := by
      intro h
      rw [h] at hd
      have := List.append_eq_nil_iff.mp hd.symm
      simp [this.1] at hn
      omega
    have hl : ¬ s.data.length < n := by rw [hd]; simp; omega
    refine .inr ⟨{ s with data := rest }, ?_, rfl, rfl, rfl⟩
    simp only [Amf.readFull, List.isEmpty_iff, hne, if_false, hl]
    rw [hd, List.take_append_of_le_length (by omega), List.drop_append_of_le_length (by omega)]
    simp [← hn]

theorem readBytes (b : Bytes) : Codec r (b.isEmpty) (Amf.readBytes b.length) b b where
  parse s rest hs hd hr := by
    refine ⟨{ s with data := rest }, ?_, rfl, rfl, rfl⟩
    by_cases he : s.data = []
    · have hb : b = [] ∧ rest = [] := by
        rw [he] at hd; exact List.append_eq_nil_iff.mp hd.symm
      have heof : s.eofOnEmpty = false := by
        cases h : s.eofOnEmpty
        · rfl
        · exact absurd hb.2 (hr (by simp [hb.1]) h)
      simp [Amf.readBytes, GoM.bind_apply, rawRead, he, hb.1, hb.2, heof]
      cases s; simp_all
    · have hg : s.got b.length = b.length := by
        have := hs s.data.length
        unfold St.got
        have h1 : b.length ≤ s.data.length := by rw [hd]; simp
        omega
      have hr : rawRead b.length s = (.ok b, { s with data := rest }) := by
        simp [rawRead, he, hg]
        rw [hd]
        simp
      simp [Amf.readBytes, GoM.bind_apply, hr]
  reject hr s p q hs hd ha hq := by
    unfold Amf.readBytes
    simp only [GoM.bind_apply]
    by_cases he : s.data = []
    · by_cases h0 : b.length = 0 ∧ s.eofOnEmpty = false
      · have hb : b = [] := List.length_eq_zero_iff.mp h0.1
        rw [hb] at ha
        have := List.append_eq_nil_iff.mp ha.symm
        simp [this.2, h0.2] at hq
      · have h0' : ¬ (b = [] ∧ s.eofOnEmpty = false) := by simpa using h0
        exact ⟨.eof, s, by simp [rawRead, he, h0']⟩
    · have hg : s.got b.length = p.length := by
        have := hs s.data.length
        unfold St.got
        have h1 : b.length = p.length + q.length := by rw [ha]; simp
        rw [hd] at this ⊢
        have hpl : 0 < p.length := List.length_pos_iff.mpr (by rw [← hd]; exact he)
        omega
      have hb : b ≠ [] := by
        intro h
        rw [h] at ha
        have := List.append_eq_nil_iff.mp ha.symm
        exact he (by rw [hd]; exact this.1)
      have hq' : q ≠ [] := by simpa [hb] using hq
      have hlen : p.length ≠ b.length := by
        have := List.length_pos_iff.mpr hq'
        rw [ha]; simp; omega
      refine ⟨.other, { s with data := s.data.drop p.length }, ?_⟩
      simp [rawRead, he, hg]
      rw [hd]
      simp [hlen]
  frag _ s rest hd := by
    unfold Amf.readBytes
    simp only [GoM.bind_apply]
    by_cases he : s.data = []
    · have hb : b = [] ∧ rest = [] := by
        rw [he] at hd; exact List.append_eq_nil_iff.mp hd.symm
      by_cases h0 : s.eofOnEmpty = false
      · exact .inr ⟨s, by simp [rawRead, he, hb.1, h0], by rw [he, hb.2], rfl, rfl⟩
      · exact .inl ⟨.eof, s, by simp [rawRead, he, h0]⟩
    · by_cases hg : s.got b.length = b.length
      · refine .inr ⟨{ s with data := rest }, ?_, rfl, rfl, rfl⟩
        have hr : rawRead b.length s = (.ok b, { s with data := rest }) := by
          simp [rawRead, he, hg]
          rw [hd]
          simp
        simp [hr]
      · refine .inl ⟨.other, { s with data := s.data.drop (s.got b.length) }, ?_⟩
        have hlt : (s.data.take (s.got b.length)).length ≠ b.length := by
          rw [List.length_take]
          unfold St.got at hg ⊢
          omega
        simp only [rawRead, List.isEmpty_iff, he, if_false, ne_eq, hlt, not_false_eq_true, if_true, GoM.fail_apply]

theorem readByte (x : UInt8) : Codec r false Amf.readByte [x] x := by
  have := (readBytes (r := r) [x]).bind (f := fun b => GoM.lift (goIndex b 0)) (c := []) (y := x) (b := false) (b2 := false)
    (pure x) (by simp)
  exact this

theorem nextByteMustBe (x : UInt8) : Codec r false (Amf.nextByteMustBe x) [x] () := by
  have := (readByte (r := r) x).bind_f (f := fun m => if m ≠ x then GoM.fail .other else Pure.pure ()) (c := []) (y := ())
    (b2 := false) (by simpa using pure ())
  exact this
end Codec

theorem beNat_be16 (n : Nat) (h : n < 65536) : beNat (be16 (UInt16.ofNat n)) = n := by
  simp only [beNat, be16, List.foldl, UInt16.toNat_toUInt8, UInt16.toNat_shiftRight, UInt16.toNat_ofNat']
  simp [Nat.shiftRight_eq_div_pow]
  omega

theorem beNat_be32 (n : Nat) (h : n < 2 ^ 32) : beNat (be32 (UInt32.ofNat n)) = n := by
  simp only [beNat, be32, List.foldl, UInt32.toNat_toUInt8, UInt32.toNat_shiftRight, UInt32.toNat_ofNat']
  simp [Nat.shiftRight_eq_div_pow]
  omega

theorem beNat_be64 (v : UInt64) : UInt64.ofNat (beNat (be64 v)) = v := by
  have hv := v.toNat_lt
  have h : beNat (be64 v) = v.toNat := by
    simp only [beNat, be64, List.foldl, UInt64.toNat_toUInt8, UInt64.toNat_shiftRight]
    simp [Nat.shiftRight_eq_div_pow]
    omega
  rw [h]; simp

/-! ## Termination and absence of panics -/

/-- Every trait in the table is non-externalizable (true of every decoder built by the constructors and
driven only by `Decode`). -/
def TraitsOk (s : St) : Prop := ∀ t ∈ s.traits, t.externalizable = false

/-- The data contains the marker of an AMF0 reference followed by an index. -/
def HasRef (d : Bytes) : Prop := ∃ a b, [7, a, b] <:+: d

theorem HasRef.mono {d d' : Bytes} (h : HasRef d) (hs : d <:+ d') : HasRef d' := by
  obtain ⟨a, b, h⟩ := h
  exact ⟨a, b, h.trans hs.isInfix⟩

/-- Started with at most `N` bytes of data, `m` ends with a value or an error (or a panic, if `pan` and the
data contains a reference), only removes data from the front, and on success has consumed at least `c`
bytes. -/
def Safe {α} (pan : Bool) (N c : Nat) (m : GoM St α) : Prop :=
  ∀ s, s.data.length ≤ N → TraitsOk s →
    (m s).1 ≠ .diverge ∧ ((m s).1 = .panic → pan = true ∧ HasRef s.data) ∧ (m s).2.data <:+ s.data ∧
    (∀ a, (m s).1 = .ok a → (m s).2.data.length + c ≤ s.data.length) ∧ TraitsOk (m s).2

namespace Safe
variable {α β : Type} {pan : Bool} {N c c' : Nat}

theorem mono {m : GoM St α} {N' c'} (h : Safe pan N c m) (hN : N' ≤ N) (hc : c' ≤ c) : Safe pan N' c' m := by
  intro s hs ht
  obtain ⟨h1, h2, h3, h4, h5⟩ := h s (by omega) ht
  exact ⟨h1, h2, h3, fun a ha => by have := h4 a ha; omega, h5⟩

/-- Sequencing; `Q` is anything known about successful results of the first part. -/
theorem bindQ {m : GoM St α} {f : α → GoM St β} (Q : α → Prop) (h1 : Safe pan N c m)
    (hQ : ∀ s s' a, TraitsOk s → m s = (.ok a, s') → Q a)
    (h2 : c ≤ N → ∀ a, Q a → Safe pan (N - c) c' (f a)) : Safe pan N (c + c') (m >>= f) := by
  intro s hs ht
  obtain ⟨a1, a2, a3, a4, a5⟩ := h1 s hs ht
  simp only [GoM.bind_apply]
  rcases hm : m s with ⟨r, s'⟩
  rw [hm] at a1 a2 a3 a4 a5
  cases r with
  | ok a =>
    have hc := a4 a rfl
    simp only at hc a3 a5 ⊢
    obtain ⟨b1, b2, b3, b4, b5⟩ := h2 (by omega) a (hQ s s' a ht hm) s' (by omega) a5
    exact ⟨b1, fun hp => ⟨(b2 hp).1, (b2 hp).2.mono a3⟩, b3.trans a3, fun y hy => by have := b4 y hy; omega, b5⟩
  | err e => simp at a3 a5 ⊢; exact ⟨a3, a5⟩
  | panic => simp at a2 a3 a5 ⊢; exact ⟨a2, a3, a5⟩
  | diverge => simp at a1

theorem bind {m : GoM St α} {f : α → GoM St β} (h1 : Safe pan N c m)
    (h2 : c ≤ N → ∀ a, Safe pan (N - c) c' (f a)) : Safe pan N (c + c') (m >>= f) :=
  bindQ (fun _ => True) h1 (fun _ _ _ _ _ => trivial) (fun h a _ => h2 h a)

theorem bind0 {m : GoM St α} {f : α → GoM St β} (h1 : Safe pan N 0 m) (h2 : ∀ a, Safe pan N c' (f a)) :
    Safe pan N c' (m >>= f) := by
  have := h1.bind (c' := c') (by simpa using h2)
  simpa using this

theorem bind0Q {m : GoM St α} {f : α → GoM St β} (Q : α → Prop) (h1 : Safe pan N 0 m)
    (hQ : ∀ s s' a, TraitsOk s → m s = (.ok a, s') → Q a) (h2 : ∀ a, Q a → Safe pan N c' (f a)) :
    Safe pan N c' (m >>= f) := by
  have := h1.bindQ (c' := c') Q hQ (by simpa using h2)
  simpa using this

/-- Sequencing that only remembers the consumption of the first part. -/
theorem bindl {m : GoM St α} {f : α → GoM St β} (h1 : Safe pan N c m)
    (h2 : c ≤ N → ∀ a, Safe pan (N - c) 0 (f a)) : Safe pan N c (m >>= f) := by
  simpa using h1.bind h2

theorem pure (a : α) : Safe pan N 0 (Pure.pure a : GoM St α) := by
  intro s _ ht; simp [ht]
theorem fail (e : Err) : Safe pan N c (GoM.fail e : GoM St α) := by
  intro s _ ht; simp [ht]
theorem get : Safe pan N 0 GoM.get := by
  intro s _ ht; simp [ht]
theorem modify (f : St → St) (h : ∀ s, (f s).data = s.data) (ht : ∀ s, TraitsOk s → TraitsOk (f s)) :
    Safe pan N 0 (GoM.modify f) := by
  intro s _ hs; simp [h, ht s hs]
theorem ite {p : Prop} [Decidable p] {m m' : GoM St α} (h1 : p → Safe pan N c m) (h2 : ¬ p → Safe pan N c m') :
    Safe pan N c (if p then m else m') := by
  by_cases hp : p
  · simpa [hp] using h1 hp
  · simpa [hp] using h2 hp

theorem rawRead (n : Nat) : Safe pan N 0 (Amf.rawRead n) := by
  intro s _ ht
  unfold Amf.rawRead
  split
  · split <;> simp [ht]
  · simp [List.drop_suffix]; exact ht

theorem readBytes (n : Nat) : Safe pan N n (Amf.readBytes n) := by
  intro s hs ht
  unfold Amf.readBytes
  simp only [GoM.bind_apply]
  unfold Amf.rawRead
  by_cases he : s.data = []
  · by_cases h0 : n = 0 ∧ s.eofOnEmpty = false
    · simp [he, h0, ht]
    · simp [he, h0, ht]
  · simp only [List.isEmpty_iff, he, if_false]
    split <;> rename_i hl
    · refine ⟨by simp, by simp, by simp [List.drop_suffix], by simp, ht⟩
    · simp only [List.length_take] at hl
      refine ⟨by simp, by simp, by simp [List.drop_suffix], fun a _ => ?_, ht⟩
      have : s.got n ≤ s.data.length := by unfold St.got; omega
      simp
      omega

theorem readByte : Safe pan N 1 Amf.readByte := by
  intro s hs ht
  have h := readBytes (pan := pan) (N := N) 1 s hs ht
  unfold Amf.readByte
  simp only [GoM.bind_apply]
  rcases hm : Amf.readBytes 1 s with ⟨r, s'⟩
  rw [hm] at h
  cases r with
  | ok b =>
    have hb : b.length = 1 := by
      unfold Amf.readBytes at hm
      simp only [GoM.bind_apply] at hm
      rcases hr : Amf.rawRead 1 s with ⟨r, s''⟩
      rw [hr] at hm
      cases r with
      | ok c =>
        simp only at hm
        split at hm
        · simp at hm
        · rename_i hc
          simp at hm hc
          rw [← hm.1]; exact hc
      | _ => simp at hm
    match b, hb with
    | [x], _ => simpa [goIndex] using h
  | _ => exact ⟨by simpa using h.1, by simpa using h.2.1, by simpa using h.2.2.1, by simp, h.2.2.2.2⟩

theorem readByte_nil {s : St} (h : s.data = []) : Amf.readByte s = (.err .eof, s) := by
  simp [Amf.readByte, Amf.readBytes, Amf.rawRead, GoM.bind_apply, h]

theorem readByte_cons {s : St} {x t} (h : s.data = x :: t) : Amf.readByte s = (.ok x, { s with data := t }) := by
  have hg : s.got 1 = 1 := by
    unfold St.got
    rw [h]; simp; omega
  simp [Amf.readByte, Amf.readBytes, Amf.rawRead, GoM.bind_apply, h, hg, goIndex]

theorem readFull {n : Nat} : Safe pan N n (Amf.readFull n) := by
  intro s hs ht
  unfold Amf.readFull
  by_cases he : s.data = []
  · simp [he, ht]
  · by_cases hl : s.data.length < n
    · simp [he, hl]; exact ht
    · simp [he, hl, List.drop_suffix]; exact ⟨by omega, ht⟩

theorem nextByteMustBe (x : UInt8) : Safe pan N 1 (Amf.nextByteMustBe x) := by
  unfold Amf.nextByteMustBe
  exact readByte.bindl fun _ a => ite (fun _ => fail _) (fun _ => pure _)

theorem lift_index {l : List α} {i : Nat} (h : ¬ i ≥ l.length) : Safe pan N 0 (GoM.lift (goIndex l i) : GoM St α) := by
  have : goIndex l i = .ok (l[i]'(by omega)) := by
    simp [goIndex, List.getElem?_eq_getElem (show i < l.length by omega)]
  rw [this]; exact pure _
end Safe

end Amf
end Verif
