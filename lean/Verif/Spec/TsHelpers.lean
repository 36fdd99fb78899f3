import Verif.Model.Ts
/-!
# Use of one `Pes` object for several headers
-/
namespace Verif.Spec.Ts
open Verif Verif.Ts

/-- `PesUsed k p`: `p` is the object from `NewPes` after any calls of `GeneratePesHeader`; `k` of them were for a video frame
(media type 0) whose PTS is not its DTS. -/
inductive PesUsed : Nat → Verif.Ts.Pes → Prop
  | new : PesUsed 0 Verif.Ts.Pes.new
  | one {k p n p'} (mt : Int) (mediaLen : Nat) (pts dts : Int) : PesUsed k p →
      p.generate mt mediaLen pts dts = .ok (n, p') → ¬ (mt = 0 ∧ pts ≠ dts) → PesUsed k p'
  | both {k p n p'} (mediaLen : Nat) (pts dts : Int) : PesUsed k p →
      p.generate 0 mediaLen pts dts = .ok (n, p') → pts ≠ dts → PesUsed (k + 1) p'

end Verif.Spec.Ts
