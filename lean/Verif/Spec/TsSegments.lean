import Verif.Spec.TsMixerHistory
/-!
# A stream in segments

`SetWriter` is there to cut a stream into pieces, such as the segments of HTTP live streaming.
-/
namespace Verif.Spec.Ts
open Verif Verif.Ts

/-- Calls one after the other, whatever their outcomes: the outcomes and the mixer afterwards. -/
def inTurn (x : Mixer) : List MixOp → List (Res Unit) × Mixer
  | [] => ([], x)
  | o :: os => (o.outcome x :: (inTurn (o.after x) os).1, (inTurn (o.after x) os).2)

/-- The same calls in segments, every segment with a writer of its own (an empty buffer): outcomes and contents of the buffer for
every segment, and the mixer afterwards. -/
def inSegments (x : Mixer) : List (List MixOp) → List (List (Res Unit) × Bytes) × Mixer
  | [] => ([], x)
  | os :: oss =>
    let y := inTurn (x.setWriter Sink.mem) os
    (⟨y.1, y.2.ts.out⟩ :: (inSegments y.2 oss).1, (inSegments y.2 oss).2)

/-- Not a call of `SetWriter`. -/
def MixOp.Keeps : MixOp → Prop
  | .setWriter _ => False
  | _ => True

end Verif.Spec.Ts
