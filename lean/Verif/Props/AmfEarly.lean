import Verif.Lemmas.AmfEarly
import Verif.Props.AmfAccept
/-!
# Property C23, the panics of the AMF0 decoder

`Early` (`Verif/Spec/AmfEarly.lean`) says that a value contains, at any depth, a reference with the index of the next complex value.
-/
namespace Verif.Props
open Verif Verif.Amf Verif.Spec.Amf Verif.Spec.Amf0

/-- C23: a fresh decoder panics only because of a reference with the index of the next complex value that comes up, at any
depth, after complete values.  Any data, any reader, split in any way. -/
theorem C23_amf0_panic_cause_partial (data : Bytes) (eofOnEmpty : Bool) (lim : Nat → Nat)
    (h : (Amf0.decode (fresh data eofOnEmpty lim)).1 = .panic) : Early false Seen0.none data :=
  Amf0.fear_decode Seen0.none _ (holds0_fresh data eofOnEmpty lim) h

/-- An object with the member a that is a strict array of null and a reference to index 2. -/
example : Early false Seen0.none [3, 0, 1, 97, 10, 0, 0, 0, 2, 5, 7, 0, 2] :=
  C23_amf0_panic_cause_partial _ true id (by decide +kernel)

/-- C23 fails in each of these cases: such a reference makes a fresh decoder panic, whatever follows it. -/
theorem C23_amf0_early_reference_refuted (data : Bytes) (eofOnEmpty : Bool) (lim : Nat → Nat) (hc : ∀ n, n ≤ lim n)
    (h : Early true Seen0.none data) : (Amf0.decode (fresh data eofOnEmpty lim)).1 = .panic :=
  Amf0.hits_decode (holds0_fresh data eofOnEmpty lim) hc h

/-- An ECMA array with the member ab that is the AMF3 integer 5 and the member c that refers to index 1. -/
example : (Amf0.decode (fresh [8, 0, 0, 0, 9, 0, 2, 97, 98, 17, 4, 5, 0, 1, 99, 7, 0, 1, 255] true id)).1 = .panic :=
  C23_amf0_early_reference_refuted _ true id (fun n => Nat.le_refl n)
    (.ecma 9 (.later (k := [97, 98]) (c := [17, 4, 5]) (d := [0, 1, 99, 7, 0, 1, 255]) (by decide) (by decide)
      (.amf3 (.int (.one 5 (by decide)) (fun _ => by decide))) (.here (k := [99]) (c := [7, 0, 1, 255]) (by decide) (by decide) (.ref (n := 1) (rest := [255]) rfl))))

theorem early_batch (n : Nat) : ∀ (t : Seen0) (ret : List Val) (s : St), Amf0.Holds0 t s →
    (Amf3.batchLoop Amf0.decode n ret s).1 = .panic → ∃ b rest vs t', s.data = b ++ rest ∧ ReadAll0 false t b vs t' ∧ Early false t' rest := by
  induction n with
  | zero => intro t ret s _ h; simp [Amf3.batchLoop, GoM.diverge] at h
  | succ n ih =>
    intro t ret s hs h
    rw [Amf3.batchLoop] at h
    rcases hm : Amf0.decode s with ⟨r, s1⟩
    simp only [hm] at h
    cases r with
    | ok a =>
      obtain ⟨b, t1, e1, r1, hs1, _⟩ := Amf0.sound0_decode t s a s1 hs hm
      obtain ⟨c, rest, vs, t2, e2, r2, r3⟩ := ih t1 (ret ++ [a]) s1 hs1 h
      exact ⟨b ++ c, rest, a :: vs, t2, by rw [e1, e2, List.append_assoc], .cons r1 r2, r3⟩
    | err e => cases e <;> simp at h
    | panic => exact ⟨[], s.data, [], t, rfl, .nil, Amf0.fear_decode t s hs (by rw [hm])⟩
    | diverge => simp at h

/-- C23 for `DecodeBatch`: it panics only for such a reference behind complete values. -/
theorem C23_amf0_batch_panic_cause_partial (data : Bytes) (eofOnEmpty : Bool) (lim : Nat → Nat)
    (h : (Amf0.decodeBatch (fresh data eofOnEmpty lim)).1 = .panic) :
    ∃ b rest vs t, data = b ++ rest ∧ ReadAll0 false Seen0.none b vs t ∧ Early false t rest :=
  early_batch _ Seen0.none [] _ (holds0_fresh data eofOnEmpty lim) h

example : ∃ b rest vs t, [5, 3, 0, 0, 9, 7, 0, 1] = b ++ rest ∧ ReadAll0 false Seen0.none b vs t ∧ Early false t rest :=
  C23_amf0_batch_panic_cause_partial [5, 3, 0, 0, 9, 7, 0, 1] false id (by decide +kernel)

theorem hits_batch (n : Nat) : ∀ (t : Seen0) (b rest : Bytes) (vs ret : List Val) (t' : Seen0) (s : St), Amf0.Holds0 t s → s.Contig →
    s.data.length < n → s.data = b ++ rest → ReadAll0 true t b vs t' → Early true t' rest → (Amf3.batchLoop Amf0.decode n ret s).1 = .panic := by
  induction n with
  | zero => intro _ _ _ _ _ _ s _ _ h; omega
  | succ n ih =>
    intro t b rest vs ret t' s hs hc hl hd hr he
    rw [Amf3.batchLoop]
    cases hr with
    | nil =>
      have := Amf0.hits_decode hs hc (hd ▸ he)
      rcases hm : Amf0.decode s with ⟨r, s1⟩
      rw [hm] at this
      cases this
      simp only [hm]
    | @cons _ c v t1 e vs _ h1 h2 =>
      have hne := Amf0.early_pos he
      obtain ⟨s1, g1, g2, g3, g4⟩ := (Amf0.takes0_decode h1).2 s (e ++ rest) hs hc (.inr (by simp [hne])) (by rw [hd, List.append_assoc])
      simp only [g1]
      have hpos : 0 < c.length := by
        cases h1 <;> simp
      refine ih t1 e rest vs _ t' s1 g4 (by unfold St.Contig; rw [g3.1]; exact hc) ?_ g2 h2 he
      rw [g2]
      rw [hd, List.length_append, List.length_append] at hl
      rw [List.length_append]
      omega

/-- C23 for `DecodeBatch` fails in each of these cases: after any values of the specification such a reference makes it panic. -/
theorem C23_amf0_batch_early_reference_refuted (b rest : Bytes) (vs : List Val) (t : Seen0) (hb : ReadAll0 true Seen0.none b vs t)
    (hr : Early true t rest) (eofOnEmpty : Bool) (lim : Nat → Nat) (hc : ∀ n, n ≤ lim n) :
    (Amf0.decodeBatch (fresh (b ++ rest) eofOnEmpty lim)).1 = .panic :=
  hits_batch _ Seen0.none b rest vs [] t _ (holds0_fresh _ eofOnEmpty lim) hc (Nat.lt_succ_self _) rfl hb hr

/-- The boolean true, an empty object, and a reference to index 1. -/
example : (Amf0.decodeBatch (fresh ([1, 1, 3, 0, 0, 9] ++ [7, 0, 1]) true id)).1 = .panic :=
  C23_amf0_batch_early_reference_refuted [1, 1, 3, 0, 0, 9] [7, 0, 1] _ _
    (.cons (b := [1, 1]) (.bool 1 (fun _ => .inr rfl)) (.cons (b := [3, 0, 0, 9]) (.obj .done) .nil)) (.ref (n := 1) (rest := []) rfl) true id (fun n => Nat.le_refl n)

end Verif.Props
