import Verif.Model.Amf
/-!
# AMF3 wire format fragments and value relations, independent of the codec
-/
namespace Verif.Spec.Amf3
open Verif.Amf

/-- The variable-length unsigned 29-bit integer of the AMF3 specification (section 1.3.1). -/
def u29 (n : Nat) : Bytes :=
  if n < 128 then [UInt8.ofNat n]
  else if n < 16384 then [UInt8.ofNat (128 + n / 128), UInt8.ofNat (n % 128)]
  else if n < 2097152 then
    [UInt8.ofNat (128 + n / 16384), UInt8.ofNat (128 + n / 128 % 128), UInt8.ofNat (n % 128)]
  else [UInt8.ofNat (128 + n / 4194304), UInt8.ofNat (128 + n / 32768 % 128),
    UInt8.ofNat (128 + n / 256 % 128), UInt8.ofNat (n % 256)]

/-- A literal (non-reference) string. -/
def utf8 (s : Bytes) : Bytes := u29 (2 * s.length + 1) ++ s

mutual
/-- Values the encoder can represent: sizes fit the length fields, keys of one object are distinct,
integers that are sent as AMF3 integers are not negative, and the milliseconds of dates are at most 2^53. -/
def Encodable : Val → Prop
  | .nil | .bool _ | .f64 _ | .uint _ _ | .int true _ => True
  | .int false i => 0 ≤ i ∨ i < -536870911
  | .str s => s.length < 2 ^ 28
  | .bytes b => b.length < 2 ^ 28
  | .time sec => (sec * 1000).natAbs ≤ 2 ^ 53
  | .arr xs => xs.length < 2 ^ 28 ∧ EncodableL xs
  | .obj kvs => kvs.length < 2 ^ 25 ∧ (kvs.map Prod.fst).Nodup ∧ EncodableF kvs
  | .typed t kvs => t.length < 2 ^ 28 ∧ kvs.length < 2 ^ 25 ∧ (kvs.map Prod.fst).Nodup ∧ EncodableF kvs
  | _ => False
def EncodableL : List Val → Prop
  | [] => True
  | v :: vs => Encodable v ∧ EncodableL vs
def EncodableF : List (Bytes × Val) → Prop
  | [] => True
  | (k, v) :: r => k.length < 2 ^ 28 ∧ Encodable v ∧ EncodableF r
end

mutual
/-- `Same v w`: `w` is what a receiver should see for `v`.  Small non-negative integers of the 8- to 32-bit
and `int`/`uint` kinds arrive as `uint32`, other integers as the nearest float64; arrays arrive as the dense
part of an `EcmaArrayAMF3`; objects keep exactly their keys, each with a corresponding value; the type name
of a typed object is not delivered. -/
def Same : Val → Val → Prop
  | .int false i, w => if 0 ≤ i ∧ i < 536870911 then w = .uint false i.toNat else w = .f64 (F64.ofInt i)
  | .int true i, w => w = .f64 (F64.ofInt i)
  | .uint false n, w => if n < 536870911 then w = .uint false n else w = .f64 (F64.ofInt n)
  | .uint true n, w => w = .f64 (F64.ofInt n)
  | .arr xs, w => ∃ ys, w = .ecma ys [] ∧ SameL xs ys
  | .obj kvs, w => ∃ l, w = .obj l ∧ l.length = kvs.length ∧ (l.map Prod.fst).Nodup ∧ SameF kvs l
  | .typed _ kvs, w => ∃ l, w = .obj l ∧ l.length = kvs.length ∧ (l.map Prod.fst).Nodup ∧ SameF kvs l
  | v, w => w = v
def SameL : List Val → List Val → Prop
  | [], ys => ys = []
  | x :: xs, ys => ∃ y t, ys = y :: t ∧ Same x y ∧ SameL xs t
/-- Every entry on the left has an entry with the same key and a corresponding value on the right. -/
def SameF : List (Bytes × Val) → List (Bytes × Val) → Prop
  | [], _ => True
  | (k, v) :: r, l => (∃ w, (k, w) ∈ l ∧ Same v w) ∧ SameF r l
end

mutual
/-- No byte array anywhere inside. -/
def NoBytes : Val → Prop
  | .bytes _ => False
  | .arr xs => NoBytesL xs
  | .obj kvs => NoBytesF kvs
  | .typed _ kvs => NoBytesF kvs
  | _ => True
def NoBytesL : List Val → Prop
  | [] => True
  | v :: vs => NoBytes v ∧ NoBytesL vs
def NoBytesF : List (Bytes × Val) → Prop
  | [] => True
  | (_, v) :: r => NoBytes v ∧ NoBytesF r
end

mutual
/-- Equal up to the iteration order of the maps, at every level. -/
def MapEq : Val → Val → Prop
  | .arr xs, w => ∃ ys, w = .arr ys ∧ MapEqL xs ys
  | .obj kvs, w => ∃ l l', w = .obj l' ∧ l.Perm l' ∧ (l'.map Prod.fst).Nodup ∧ MapEqF kvs l
  | .typed t kvs, w => ∃ l l', w = .typed t l' ∧ l.Perm l' ∧ (l'.map Prod.fst).Nodup ∧ MapEqF kvs l
  | v, w => w = v
def MapEqL : List Val → List Val → Prop
  | [], ys => ys = []
  | x :: xs, ys => ∃ y t, ys = y :: t ∧ MapEq x y ∧ MapEqL xs t
def MapEqF : List (Bytes × Val) → List (Bytes × Val) → Prop
  | [], l => l = []
  | (k, v) :: r, l => ∃ w t, l = (k, w) :: t ∧ MapEq v w ∧ MapEqF r t
end

/-- How a producer sends a string value: in full, or as an index into the strings sent so far. -/
inductive Sent where
  | lit (s : Bytes)
  | ref (i : Nat)

/-- The bytes of a string value (marker 6); references have the low bit clear. -/
def Sent.bytes : Sent → Bytes
  | .lit s => 6 :: utf8 s
  | .ref i => 6 :: u29 (2 * i)

/-- Sizes that fit the 29-bit fields. -/
def Sent.Fits : Sent → Prop
  | .lit s => s.length < 2 ^ 28
  | .ref i => i < 2 ^ 28

/-- The strings denoted by a sequence of sent strings, `tab` being the non-empty strings already sent in
full. -/
def denote (tab : List Bytes) : List Sent → Option (List Bytes)
  | [] => some []
  | .lit s :: r => (denote (if s = [] then tab else tab ++ [s]) r).map (s :: ·)
  | .ref i :: r => match tab[i]? with
    | none => none
    | some s => (denote tab r).map (s :: ·)

end Verif.Spec.Amf3
