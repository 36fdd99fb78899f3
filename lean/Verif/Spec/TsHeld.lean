import Verif.Model.TsHeld
import Verif.Spec.TsHistory
/-!
# Calls that do not make a certain table
-/
namespace Verif.Spec.Ts
open Verif Verif.Ts

/-- `Since k m m'`: `m'` is `m` after any calls, with any outcome, except calls of the function that makes the table `k`. -/
inductive Since (k : Table) (m : Muxer) : Muxer → Prop
  | refl : Since k m m
  | mux {m'} (p : Packet) (dts pts : Int) (w : Sink) : Since k m m' → Since k m (Verif.Ts.mux p dts pts ⟨m', w⟩).2.m
  | sdt {m'} (hk : k ≠ .sdt) (desc : Bytes) : Since k m m' → Since k m (Verif.Ts.sdt desc m').2
  | pat {m'} (hk : k ≠ .pat) : Since k m m' → Since k m (Verif.Ts.pat m').2
  | pmt {m'} (hk : k ≠ .pmt) (mediaType : List Int) : Since k m m' → Since k m (Verif.Ts.pmt mediaType m').2

end Verif.Spec.Ts
