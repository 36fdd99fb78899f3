import Verif.Spec.TsMixerHistory
/-!
# The clock of a program

A receiver sets its clock by the program clock references (PCR) in the stream; ISO/IEC 13818-1, 2.7.2 wants one at least every 100 ms.
-/
namespace Verif.Spec.Ts
open Verif Verif.Ts

/-- `Broadcast y x ks`: from the mixer `y` to the mixer `x` frames have been given to `Update` and `Mux`, which accepted them, in any
order and mixed with `SetTsHeader` calls and any calls that write nothing.  `ks` are the decoding times of the key frames, in units of
1/90000 s (modulo 2^32, see C56). -/
inductive Broadcast (y : Mixer) : Mixer → List Nat → Prop
  | start : Broadcast y y []
  | silent {x ks} (o : MixOp) : Broadcast y x ks → (o.after x).ts = x.ts → Broadcast y (o.after x) ks
  | tables {x ks} : Broadcast y x ks → x.setTsHeader.1 = .ok () → Broadcast y x.setTsHeader.2 ks
  | key {x ks} (p : Packet) (vh : VideoHdr) (a b : UInt32) : Broadcast y x ks → p.type = 0 → p.asVideo = .ok vh → vh.isKeyFrame = true →
      ((x.update p a b).2.mux p).1 = .ok () → Broadcast y ((x.update p a b).2.mux p).2.1 (ks ++ [90 * a.toNat % 2 ^ 32])
  | other {x ks} (p : Packet) (a b : UInt32) : Broadcast y x ks → (¬ ∃ vh, p.type = 0 ∧ p.asVideo = .ok vh ∧ vh.isKeyFrame = true) →
      ((x.update p a b).2.mux p).1 = .ok () → Broadcast y ((x.update p a b).2.mux p).2.1 ks

/-- The clock references of a stream with their PIDs. -/
def clock (ps : List TsPacket) : List (Nat × Nat × Nat) := ps.filterMap fun t => (pcrOf t).map fun c => (t.pid, c.1, c.2)

end Verif.Spec.Ts
