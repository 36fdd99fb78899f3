import Verif.Spec.Amf0
import Verif.Spec.Amf3Peer
/-!
# What other AMF0 producers send, and what it means

A message is described by the choices of its producer: short or long strings, objects or ECMA arrays with any
count, any time zone field, and values in AMF3 behind the AMF3 marker.  Section numbers are those of the AMF0
specification.  Not covered: references to strict arrays and references sent after a typed object (C25), movie
clips and record sets (reserved), and true booleans sent as another byte than 1 (C98).
-/
namespace Verif.Spec.Amf0
open Verif.Amf

inductive P0 where
  | number (bits : UInt64)
  | bool (flag : UInt8)
  | str (s : Bytes)
  | obj (fields : List (Bytes × P0))
  | null
  | undefined
  | ecma (count : UInt32) (fields : List (Bytes × P0))
  | strict (xs : List P0)
  | date (ms : UInt64) (zone : UInt16)
  | longStr (s : Bytes)
  | unsupported
  | xml (s : Bytes)
  | typed (name : Bytes) (fields : List (Bytes × P0))
  | amf3 (v : Amf3.PVal)
  | ref (n : UInt16)

mutual
/-- The bytes of a value (2.1-2.18). -/
def P0.wire : P0 → Bytes
  | .number f => 0 :: be64 f
  | .bool b => [1, b]
  | .str s => 2 :: utf8 s
  | .obj fs => 3 :: p0wireF fs
  | .null => [5]
  | .undefined => [6]
  | .ecma n fs => 8 :: (be32 n ++ p0wireF fs)
  | .strict xs => 10 :: (be32 (UInt32.ofNat xs.length) ++ p0wireL xs)
  | .date ms z => 11 :: (be64 ms ++ be16 z)
  | .longStr s => 12 :: utf8Long s
  | .unsupported => [13]
  | .xml s => 15 :: utf8Long s
  | .typed t fs => 16 :: (utf8 t ++ p0wireF fs)
  | .amf3 v => 17 :: v.wire
  | .ref n => 7 :: be16 n
def p0wireL : List P0 → Bytes
  | [] => []
  | v :: vs => v.wire ++ p0wireL vs
def p0wireF : List (Bytes × P0) → Bytes
  | [] => [0, 0, 9]
  | (k, v) :: r => utf8 k ++ (v.wire ++ p0wireF r)
end

mutual
/-- Sizes fit the fields they are sent in. -/
def P0.Fits : P0 → Prop
  | .number _ | .null | .undefined | .unsupported | .date _ _ | .ref _ => True
  | .bool b => b = 0 ∨ b = 1
  | .str s => s.length < 65536
  | .longStr s | .xml s => s.length < 2 ^ 32
  | .obj fs | .ecma _ fs => P0FitsF fs
  | .typed t fs => t.length < 65536 ∧ P0FitsF fs
  | .strict xs => xs.length < 2 ^ 32 ∧ P0FitsL xs
  | .amf3 v => v.Fits
def P0FitsL : List P0 → Prop
  | [] => True
  | v :: vs => v.Fits ∧ P0FitsL vs
def P0FitsF : List (Bytes × P0) → Prop
  | [] => True
  | (k, v) :: r => k ≠ [] ∧ k.length < 65536 ∧ v.Fits ∧ P0FitsF r
end

/-- A complex value that was sent: an object (or ECMA array) with its members so far, or another one. -/
inductive Complex where
  | obj (members : List (Bytes × Val))
  | other

/-- What has been sent in AMF3 so far, the complex values sent in AMF0, numbered from 0 in the order of
their beginnings (2.9), and whether a typed object has been sent. -/
structure Known where
  amf3 : Amf3.Sofar
  complex : List Complex
  typed : Bool

def Known.none : Known := ⟨Amf3.Sofar.none, [], false⟩
def Known.add (t : Known) (c : Complex) : Known := { t with complex := t.complex ++ [c] }
/-- Object number `o` (if it has a number) now has these members. -/
def Known.put (t : Known) (o : Option Nat) (members : List (Bytes × Val)) : Known := match o with
  | .none => t
  | some i => { t with complex := t.complex.set i (.obj members) }

mutual
/-- The value denoted; `t` is what has been sent so far.  Dates are the number of milliseconds, the
time zone is to be ignored (2.13); ECMA arrays are objects (2.10); a name sent again gets a new value.  A
reference denotes the object with that number (`shared n`), whose members need not be complete yet (2.9). -/
def P0.den (t : Known) : P0 → Option (Val × Known)
  | .number f => some (.f64 f, t)
  | .bool b => some (.bool (b ≠ 0), t)
  | .str s | .longStr s | .xml s => some (.str s, t)
  | .null | .undefined | .unsupported => some (.nil, t)
  | .date ms _ => some (.f64 ms, t)
  | .obj fs | .ecma _ fs => match p0denF (t.add (.obj [])) (some t.complex.length) [] fs with
    | .none => .none
    | some (l, t) => some (.obj l, t)
  | .typed name fs => match p0denF { t.add .other with typed := true } .none [] fs with
    | .none => .none
    | some (l, t) => some (.typed name l, t)
  | .strict xs => match p0denL (t.add .other) xs with
    | .none => .none
    | some (l, t) => some (.arr l, t)
  | .amf3 v => match v.den t.amf3 with
    | .none => .none
    | some (x, u) => some (x, { t with amf3 := u })
  | .ref n => if t.typed then .none else match t.complex[n.toNat]? with
    | some (.obj _) => some (.shared n.toNat, t)
    | _ => .none
def p0denL (t : Known) : List P0 → Option (List Val × Known)
  | [] => some ([], t)
  | v :: vs => match v.den t with
    | .none => .none
    | some (x, t) => match p0denL t vs with
      | .none => .none
      | some (xs, t) => some (x :: xs, t)
/-- The members, `l` having been sent before. -/
def p0denF (t : Known) (o : Option Nat) (l : List (Bytes × Val)) : List (Bytes × P0) → Option (List (Bytes × Val) × Known)
  | [] => some (Amf3.lastWins l, t)
  | (k, v) :: r => match v.den t with
    | .none => .none
    | some (x, t) => p0denF (t.put o (Amf3.lastWins (l ++ [(k, x)]))) o (l ++ [(k, x)]) r
end

end Verif.Spec.Amf0
