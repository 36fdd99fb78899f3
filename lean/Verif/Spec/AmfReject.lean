import Verif.Model.Amf
/-!
# Which values `Encode` is documented to take

`Encode` of AMF0 lists its kinds in its comment: objects, typed objects, dates, nil, floats, booleans, strings, integers, arrays
and slices.  Everything else is to be rejected.
-/
namespace Verif.Spec.Amf
open Verif.Amf

mutual
/-- No part of the value is a map that a decoder has handed out twice (those are treated at C150). -/
def Tree : Val → Prop
  | .shared _ => False
  | .arr xs => TreeL xs
  | .obj kvs => TreeF kvs
  | .typed _ kvs => TreeF kvs
  | _ => True
def TreeL : List Val → Prop
  | [] => True
  | v :: vs => Tree v ∧ TreeL vs
def TreeF : List (Bytes × Val) → Prop
  | [] => True
  | (_, v) :: r => Tree v ∧ TreeF r
end

mutual
/-- Every part of the value is of a documented kind and, if `nonneg` is set, no integer of a kind with at most 32 bits is between
-536870911 and -1. -/
def Supported (nonneg : Bool) : Val → Prop
  | .other | .ecma _ _ | .shared _ => False
  | .int false i => nonneg = true → ¬ (-536870911 ≤ i ∧ i ≤ -1)
  | .arr xs => SupportedL nonneg xs
  | .obj kvs => SupportedF nonneg kvs
  | .typed _ kvs => SupportedF nonneg kvs
  | _ => True
def SupportedL (nonneg : Bool) : List Val → Prop
  | [] => True
  | v :: vs => Supported nonneg v ∧ SupportedL nonneg vs
def SupportedF (nonneg : Bool) : List (Bytes × Val) → Prop
  | [] => True
  | (_, v) :: r => Supported nonneg v ∧ SupportedF nonneg r
end

mutual
/-- Strings, byte arrays, arrays and objects are not too long for the length fields of AMF3. -/
def Short : Val → Prop
  | .str s => s.length < 2 ^ 28
  | .bytes b => b.length < 2 ^ 28
  | .arr xs => xs.length < 2 ^ 28 ∧ ShortL xs
  | .obj kvs => kvs.length < 2 ^ 25 ∧ ShortF kvs
  | .typed t kvs => t.length < 2 ^ 28 ∧ kvs.length < 2 ^ 25 ∧ ShortF kvs
  | _ => True
def ShortL : List Val → Prop
  | [] => True
  | v :: vs => Short v ∧ ShortL vs
def ShortF : List (Bytes × Val) → Prop
  | [] => True
  | (k, v) :: r => k.length < 2 ^ 28 ∧ Short v ∧ ShortF r
end

/-- Something made of parts. -/
def Compound : Val → Prop
  | .arr _ | .obj _ | .typed _ _ => True
  | _ => False

end Verif.Spec.Amf
