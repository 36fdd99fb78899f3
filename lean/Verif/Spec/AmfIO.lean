import Verif.Model.Go
/-!
# Writers that may fail
-/
namespace Verif.Spec.AmfIO

/-- The call `m` reports failures of its writer `w` faithfully: what `w` accepted is a prefix of what a `bytes.Buffer`
would have got; the writer's error is returned exactly if one of the `Write` calls made failed; and if none failed,
everything was written and the result is the one obtained with a `bytes.Buffer`. -/
def Reports {α} (m : GoM Sink α) : Prop := ∀ w : Sink, ∃ p q,
  (m w).2.out = w.out ++ p ∧ (m Sink.mem).2.out = p ++ q ∧
  ((m w).1 = .err .writer ↔ ∃ k, w.calls ≤ k ∧ k < (m w).2.calls ∧ w.plan k ≠ none) ∧
  ((m w).1 = .err .writer ∨ q = [] ∧ (m w).1 = (m Sink.mem).1)

end Verif.Spec.AmfIO
