import Verif.Model.Amf0Shared
/-!
# Encoding AMF0 values that contain shared maps as AMF3

`EnDecAMF0` has the AMF3 encoder as well (`EncodeWithAMF3`), so that values decoded from AMF0, with maps that occur more than once
or inside themselves, can be given to it.  `Verif.Amf3.enc` (amf3.go:541-598) is for values without such maps; here is the encoder
for all values, on the maps `refs` as they are when decoding has ended.  Recursion of `Encode` (stack depth) is bounded by the fuel,
which is the only difference to the code.
-/
namespace Verif.Amf3
open Verif.Amf

/-- amf3.go:541-598 `EnDecAMF3.Encode` with `encodeArray` (725-754) and `encodeObject` (756-859); the other kinds are as in `enc`. -/
def encodeShared (refs : List Ref0) : Nat → Val → GoM Sink Nat
  | 0, _ => GoM.diverge
  | f + 1, .arr xs => do
    writeByte 0x09
    let m ← encodeUint29 (UInt32.ofNat xs.length)
    let m' ← encodeUtf8 []
    let k ← Amf0.sharedL (encodeShared refs f) xs
    pure (1 + m + m' + k)
  | f + 1, .obj kvs => encodeEntries [] (kvs.map fun e => (e.1, encodeShared refs f e.2))
  | f + 1, .typed t kvs => encodeEntries t (kvs.map fun e => (e.1, encodeShared refs f e.2))
  | f + 1, .shared n => match refs[n]? with
    | some (.object kvs) => encodeEntries [] (kvs.map fun e => (e.1, encodeShared refs f e.2))
    | _ => GoM.fail .other
  | _ + 1, v => encode v

end Verif.Amf3

namespace Verif.Amf0
open Verif.Amf

/-- amf0.go:357-369 `EncodeWithAMF3` for values with shared maps. -/
def encodeSharedWithAMF3 (refs : List Ref0) (depth : Nat) (v : Val) : GoM Sink Nat :=
  swallowMarker 0x11 do
    let n ← Amf3.encodeShared refs depth v
    pure (n + 1)

end Verif.Amf0
