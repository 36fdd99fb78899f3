import Verif.Model.AmfReg
/-!
# Property C143: handlers can be registered with every decoder

A caller registers handlers one after the other (`Registered`); the handler in force for a class is the one registered
last for its name.
-/
namespace Verif.Props
open Verif Verif.Amf Verif.AmfReg

/-- `Registered r0 hs r`: the decoder `r0` accepted the registrations `hs`, oldest first, and is `r` then. -/
inductive Registered (r0 : Registry) : List (Bytes × GoM St Val) → Registry → Prop
  | nil : Registered r0 [] r0
  | snoc {hs r n f r'} : Registered r0 hs r → register n f r = (.ok (), r') → Registered r0 (hs ++ [(n, f)]) r'

/-- C143 (partial): a decoder made by `NewEnDecAMF3` accepts every sequence of registrations, and for every name the handler in
force is the one registered last for it.  Missing: decoders made by `NewEnDecAMF0` (`C143_amf0_refuted`). -/
theorem C143_amf3_partial (hs : List (Bytes × GoM St Val)) :
    ∃ r, Registered newAMF3 hs r ∧
      (∀ n f, register n f r = (.ok (), (register n f r).2)) ∧
      (∀ n, (∀ x ∈ hs, x.1 ≠ n) → lookup r n = none) ∧
      ∀ before n f after, hs = before ++ (n, f) :: after → (∀ x ∈ after, x.1 ≠ n) → lookup r n = some f := by
  have key : ∀ l : List (Bytes × GoM St Val), Registered newAMF3 l.reverse (some l) := by
    intro l
    induction l with
    | nil => exact .nil
    | cons x l ih => rw [List.reverse_cons]; exact .snoc ih rfl
  have key : Registered newAMF3 hs (some hs.reverse) := by simpa using key hs.reverse
  refine ⟨_, key, fun n f => rfl, fun n h => ?_, ?_⟩
  · simp only [lookup, Option.getD_some]
    exact List.lookup_eq_none_iff.2 fun x hx => by simpa using fun e => h x (List.mem_reverse.1 hx) e.symm
  · rintro before n f after rfl h
    simp only [lookup, Option.getD_some, List.reverse_append, List.reverse_cons, List.append_assoc]
    rw [List.lookup_append, List.lookup_eq_none_iff.2 fun x hx => by simpa using fun e => h x (List.mem_reverse.1 hx) e.symm]
    simp

example : ∃ r, Registered newAMF3 [([65], pure .nil), ([66], pure .nil), ([65], pure (.bool true))] r ∧
    lookup r [65] = some (pure (.bool true)) := by
  obtain ⟨r, h, _, _, h2⟩ := C143_amf3_partial [([65], pure .nil), ([66], pure .nil), ([65], pure (.bool true))]
  exact ⟨r, h, h2 [([65], pure .nil), ([66], pure .nil)] _ _ [] rfl (by simp)⟩

/-- C143 fails for every decoder made by `NewEnDecAMF0`, whose AMF3 values are decoded with the same handlers: registering a
handler panics, whatever the name and the handler, so nothing is ever registered; also a caller who recovers from the
panic finds the decoder as it was. -/
theorem C143_amf0_refuted (hs : List (Bytes × GoM St Val)) (r : Registry) (h : Registered newAMF0 hs r) :
    hs = [] ∧ (∀ n f, register n f r = (.panic, r)) ∧ ∀ n, lookup r n = Amf0.noHandlers n := by
  have : hs = [] ∧ r = none := by
    induction h with
    | nil => exact ⟨rfl, rfl⟩
    | snoc _ he ih => rw [ih.2] at he; simp [register] at he
  obtain ⟨rfl, rfl⟩ := this
  exact ⟨rfl, fun _ _ => rfl, fun _ => rfl⟩

example : (register [65] (pure .nil) newAMF0).1 = .panic :=
  congrArg Prod.fst ((C143_amf0_refuted [] _ .nil).2.1 _ _)

end Verif.Props
