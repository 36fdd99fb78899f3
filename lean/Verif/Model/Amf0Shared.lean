import Verif.Model.Amf0
/-!
# Encoding AMF0 values that contain shared maps

A value decoded by `EnDecAMF0` can contain the same Go map more than once, also inside itself (`Val.shared`).  `Verif.Amf0.enc`
(amf0.go:298-341) is for values without such maps; here is the encoder for all values, on the maps `refs` as they are when
decoding has ended.  Recursion of `Encode` (stack depth) is bounded by the fuel, which is the only difference to the code.
-/
namespace Verif.Amf0
open Verif.Amf

/-- amf0.go:590-596: the elements of an array. -/
def sharedL (e : Val → GoM Sink Nat) : List Val → GoM Sink Nat
  | [] => pure 0
  | v :: vs => do
    let m ← e v
    let k ← sharedL e vs
    pure (m + k)

/-- amf0.go:530-562: the entries of a map in `range` order, then the end. -/
def sharedF (e : Val → GoM Sink Nat) : List (Bytes × Val) → GoM Sink Nat
  | [] => do
    let m ← encodeString [] false
    writeByte 0x09
    pure (m + 1)
  | (k, v) :: r => do
    let m ← encodeString k false
    let m' ← e v
    let m'' ← sharedF e r
    pure (m + m' + m'')

/-- amf0.go:298-341 `EnDecAMF0.Encode` with `encodeObject` (518-562), `encodeStrictArray` (573-599) and `encodeTypeObject`
(654-675); the other kinds are as in `enc`. -/
def encodeShared (refs : List Ref0) : Nat → Val → GoM Sink Nat
  | 0, _ => GoM.diverge
  | f + 1, .arr xs => do
    writeByte 0x0a
    Sink.write (be32 (UInt32.ofNat xs.length))
    let m ← sharedL (encodeShared refs f) xs
    pure (1 + 4 + m)
  | f + 1, .obj kvs => do
    let n ← optMarker 0x03 true
    let m ← sharedF (encodeShared refs f) kvs
    pure (n + m)
  | f + 1, .typed t kvs => do
    writeByte 0x10
    let m ← encodeString t false
    let m' ← sharedF (encodeShared refs f) kvs
    pure (1 + m + m')
  | f + 1, .shared n => match refs[n]? with
    | some (.object kvs) => do
      let n ← optMarker 0x03 true
      let m ← sharedF (encodeShared refs f) kvs
      pure (n + m)
    | _ => GoM.fail .other
  | _ + 1, v => encode v

end Verif.Amf0
