import Verif.Spec.TsStream
import Verif.Spec.TsMixerHistory
/-!
# Tuning in

A receiver of a broadcast begins with some packet in the middle of the stream.
-/
namespace Verif.Spec.Ts
open Verif Verif.Ts

/-- What a receiver gets on a PID that begins behind the first `n` packets: the rest of a unit that began before is thrown away. -/
def receiveLate (pid n : Nat) (out : Bytes) : Option (List Pes) :=
  match parseStream (out.drop (188 * n)) with
  | none => none
  | some ps => parsePesAll (cutUnits (ps.filter (·.pid == pid))).2

/-- How many units of a PID begin within the first `n` packets. -/
def begun (pid n : Nat) (out : Bytes) : Nat :=
  match parseStream out with
  | none => 0
  | some ps => (ps.take n).countP fun t => t.pid == pid && t.start

/-- `Frames y x`: from the mixer `y` to the mixer `x` packets of any kind have been given to `Mux`, which accepted them, mixed with any
calls that write nothing. -/
inductive Frames (y : Mixer) : Mixer → Prop
  | start : Frames y y
  | silent {x} (o : MixOp) : Frames y x → (o.after x).ts = x.ts → Frames y (o.after x)
  | mux {x} (p : Packet) : Frames y x → (x.mux p).1 = .ok () → Frames y (x.mux p).2.1

end Verif.Spec.Ts
