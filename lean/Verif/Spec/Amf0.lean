import Verif.Model.Amf
/-!
# AMF0 wire format and value classes, independent of the codec

The format follows the AMF0 specification (Adobe, "Action Message Format -- AMF 0").
-/
namespace Verif.Spec.Amf0
open Verif.Amf

/-- UTF-8 string with 16-bit length. -/
def utf8 (s : Bytes) : Bytes := be16 (UInt16.ofNat s.length) ++ s
/-- UTF-8 string with 32-bit length. -/
def utf8Long (s : Bytes) : Bytes := be32 (UInt32.ofNat s.length) ++ s
/-- A number value. -/
def number (f : UInt64) : Bytes := 0 :: be64 f

mutual
/-- The AMF0 encoding of a value. -/
def wire : Val → Bytes
  | .nil => [5]
  | .bool b => [1, if b then 1 else 0]
  | .f64 f => number f
  | .int _ i => number (F64.ofInt i)
  | .uint _ n => number (F64.ofInt n)
  | .str s => if s.length < 65536 then 2 :: utf8 s else 12 :: utf8Long s
  | .arr xs => 10 :: (be32 (UInt32.ofNat xs.length) ++ wireL xs)
  | .bytes b => 10 :: (be32 (UInt32.ofNat b.length) ++ b.flatMap fun x => number (F64.ofInt x.toNat))
  | .obj kvs => 3 :: wireF kvs
  | .typed t kvs => 16 :: (utf8 t ++ wireF kvs)
  | .time t => 11 :: (be64 (F64.mul1000 (F64.ofInt t)) ++ [0, 0])
  | _ => []
/-- Concatenated encodings. -/
def wireL : List Val → Bytes
  | [] => []
  | v :: vs => wire v ++ wireL vs
/-- Object entries and end marker. -/
def wireF : List (Bytes × Val) → Bytes
  | [] => [0, 0, 9]
  | (k, v) :: r => utf8 k ++ wire v ++ wireF r
end

mutual
/-- Values that have an AMF0 encoding: keys of one object are distinct, 1 to 65535 bytes long; type names at
most 65535 bytes; strings and arrays shorter than 2^32.  Dates are excluded. -/
def Encodable : Val → Prop
  | .nil | .bool _ | .f64 _ | .int _ _ | .uint _ _ => True
  | .str s => s.length < 2 ^ 32
  | .arr xs => xs.length < 2 ^ 32 ∧ EncodableL xs
  | .bytes b => b.length < 2 ^ 32
  | .obj kvs => (kvs.map Prod.fst).Nodup ∧ EncodableF kvs
  | .typed t kvs => t.length ≤ 65535 ∧ (kvs.map Prod.fst).Nodup ∧ EncodableF kvs
  | _ => False
def EncodableL : List Val → Prop
  | [] => True
  | v :: vs => Encodable v ∧ EncodableL vs
def EncodableF : List (Bytes × Val) → Prop
  | [] => True
  | (k, v) :: r => (1 ≤ k.length ∧ k.length ≤ 65535) ∧ Encodable v ∧ EncodableF r
end

mutual
/-- The value with every integer replaced by the nearest float64, and byte slices by arrays of numbers. -/
def numbers : Val → Val
  | .int _ i => .f64 (F64.ofInt i)
  | .uint _ n => .f64 (F64.ofInt n)
  | .arr xs => .arr (numbersL xs)
  | .bytes b => .arr (b.map fun x => .f64 (F64.ofInt x.toNat))
  | .obj kvs => .obj (numbersF kvs)
  | .typed t kvs => .typed t (numbersF kvs)
  | v => v
def numbersL : List Val → List Val
  | [] => []
  | v :: vs => numbers v :: numbersL vs
def numbersF : List (Bytes × Val) → List (Bytes × Val)
  | [] => []
  | (k, v) :: r => (k, numbers v) :: numbersF r
end

mutual
/-- Built from nil, booleans, float64, strings, arrays, objects and typed objects only. -/
def Plain : Val → Prop
  | .nil | .bool _ | .f64 _ | .str _ => True
  | .arr xs => PlainL xs
  | .obj kvs => PlainF kvs
  | .typed _ kvs => PlainF kvs
  | _ => False
def PlainL : List Val → Prop
  | [] => True
  | v :: vs => Plain v ∧ PlainL vs
def PlainF : List (Bytes × Val) → Prop
  | [] => True
  | (_, v) :: r => Plain v ∧ PlainF r
end

mutual
/-- The encoding of the value ends with an empty string. -/
def endsEmpty : Val → Bool
  | .str s => s.isEmpty
  | .arr xs => endsEmptyL xs
  | _ => false
def endsEmptyL : List Val → Bool
  | [] => false
  | v :: vs => match vs with
    | [] => endsEmpty v
    | _ :: _ => endsEmptyL vs
end

mutual
/-- No object key and no type name is longer than 65535 bytes. -/
def ShortNames : Val → Prop
  | .arr xs => ShortNamesL xs
  | .obj kvs => ShortNamesF kvs
  | .typed t kvs => t.length ≤ 65535 ∧ ShortNamesF kvs
  | _ => True
def ShortNamesL : List Val → Prop
  | [] => True
  | v :: vs => ShortNames v ∧ ShortNamesL vs
def ShortNamesF : List (Bytes × Val) → Prop
  | [] => True
  | (k, v) :: r => k.length ≤ 65535 ∧ ShortNames v ∧ ShortNamesF r
end

end Verif.Spec.Amf0
