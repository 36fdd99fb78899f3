import Verif.Model.Gop
/-! # Vectors of the Go tests of `gop` and `packet` (tests of the model, not proofs) -/
namespace Verif.Tests.Gop
open Verif Verif.Gop

/-- gop_test.go TestNewCache: a key frame `p1` and five frames `p2`, then `SendTo` into an empty buffer.
Gives the index after the key frame, the bytes sent, whether every call returned nil, and the cache. -/
def round (g : GopCache Bytes) : Int × Bytes × Bool × GopCache Bytes :=
  let r := g.write [1, 2, 3] true
  let (ok, g') := (List.range 5).foldl (fun (a : Bool × GopCache Bytes) _ =>
    let r := a.2.write [4, 5, 6] false; (a.1 && r.1.isOk, r.2)) (r.1.isOk, r.2)
  let s := g'.sendTo { out := [] }
  (r.2.index, s.2.out.flatten, ok && s.1.isOk, g')

/-- The bytes of one group in gop_test.go. -/
def group : Bytes := [1, 2, 3, 4, 5, 6, 4, 5, 6, 4, 5, 6, 4, 5, 6, 4, 5, 6]

/-- gop_test.go TestNewCache, cases 1 to 12 -/
example :
    (match newGopCache (P := Bytes) 3 with
    | .ok g =>
      let a := round g
      let b := round a.2.2.2
      let c := round b.2.2.2
      let d := round c.2.2.2
      [(a.1, a.2.1, a.2.2.1), (b.1, b.2.1, b.2.2.1), (c.1, c.2.1, c.2.2.1), (d.1, d.2.1, d.2.2.1)]
    | _ => []) =
    [(0, group, true), (1, group ++ group, true), (2, group ++ group ++ group, true),
     (0, group ++ group ++ group, true)] := by decide +kernel

/-- types_test.go TestNewMediaType -/
example :
    let mt := Types.new
    let v := mt.isVideo
    let a := v.reset.isAudio
    (mt.toSlice, v.toSlice, a.toSlice, a.isVideo.toSlice) = ([], [0], [1], [0, 1]) := by decide +kernel
end Verif.Tests.Gop
