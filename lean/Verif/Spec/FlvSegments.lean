import Verif.Spec.FlvHistory
/-!
# A recording in several files

`SetWriter` is there to go on with another file.
-/
namespace Verif.Spec.Flv
open Verif Verif.Amf

/-- Calls one after the other, whatever their outcomes: for each of them the outcome and the packet afterwards, and the mixer afterwards. -/
def inTurn (x : Flv.Mixer) : List Op → List (Res Unit × Packet) × Flv.Mixer
  | [] => ([], x)
  | o :: os => (((call o x).1, (call o x).2.2) :: (inTurn (call o x).2.1 os).1, (inTurn (call o x).2.1 os).2)

/-- The same calls with a new buffer for every part: outcomes, packets and contents of the buffer for every part, and the mixer
afterwards. -/
def inFiles (x : Flv.Mixer) : List (List Op) → List (List (Res Unit × Packet) × Bytes) × Flv.Mixer
  | [] => ([], x)
  | os :: oss =>
    let y := inTurn (x.setWriter Sink.mem) os
    (⟨y.1, y.2.flv.out⟩ :: (inFiles y.2 oss).1, (inFiles y.2 oss).2)

/-- Not a call of `SetWriter`. -/
def Op.Keeps : Op → Prop
  | .setWriter _ => False
  | _ => True

/-- The tags of the packets for which `Mux` succeeds, as the packets are after the call. -/
def tagsOf (x : Flv.Mixer) : List (Packet × UInt32) → List TagRec
  | [] => []
  | (p, pts) :: ps =>
    let r := call (.mux p pts) x
    (if okRes r.1 then [tagOf r.2.2 pts.toNat] else []) ++ tagsOf r.2.1 ps

end Verif.Spec.Flv
