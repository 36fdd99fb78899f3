import Verif.Model.TsBuf
/-!
# What C134 asks for: packets are values

The calls of `World`, with packets that nothing but their own calls changes.
-/
namespace Verif.Spec.Ts
open Verif Verif.Ts

/-- Mixers and packets without sharing. -/
structure Plain where
  mixers : Nat → Mixer
  packets : Nat → Packet

/-- A call: the result of the call and everything behind it. -/
def Plain.step (s : Plain) : Call → Res Unit × Plain
  | .mux k i =>
    match (s.mixers k).mux (s.packets i) with
    | (r, x, p) => (r, ⟨fun j => if j = k then x else s.mixers j, fun j => if j = i then p else s.packets j⟩)
  | .save video k i =>
    match (if video then (s.mixers k).saveAVCHeader (s.packets i) else (s.mixers k).saveAACHeader (s.packets i)) with
    | (r, x, p) => (r, ⟨fun j => if j = k then x else s.mixers j, fun j => if j = i then p else s.packets j⟩)
  | .other k f => (.ok (), { s with mixers := fun j => if j = k then f (s.mixers k) else s.mixers j })

/-- A sequence of calls: their results and everything behind them. -/
def Plain.run (s : Plain) : List Call → List (Res Unit) × Plain
  | [] => ([], s)
  | c :: r => ((s.step c).1 :: ((s.step c).2.run r).1, ((s.step c).2.run r).2)

/-- The calls of `Mux` (mixer and packet), latest first. -/
def muxes : List Call → List (Nat × Nat)
  | [] => []
  | .mux k i :: r => muxes r ++ [(k, i)]
  | _ :: r => muxes r

/-- No mixer that has muxed packet `i` has muxed another one since (`hist`: latest first). -/
def Current (hist : List (Nat × Nat)) (i : Nat) : Prop :=
  ∀ k, (k, i) ∈ hist → hist.find? (fun c => c.1 == k) = some (k, i)

/-- The packet a call uses. -/
def packetOf : Call → Option Nat
  | .mux _ i => some i
  | .save _ _ i => some i
  | .other _ _ => none

/-- Every packet is used only as long as it is current. -/
def InTime (calls : List Call) : Prop :=
  ∀ l c r i, calls = l ++ c :: r → packetOf c = some i → Current (muxes l) i

end Verif.Spec.Ts
