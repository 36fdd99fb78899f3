import Verif.Model.Amf
/-!
# The size of an AMF value

`count`: the number of values a value consists of, itself included.  `Fits n`: none of its strings, names and byte arrays has more
than `n` bytes.
-/
namespace Verif.Spec.Amf
open Verif.Amf

mutual
def count : Val → Nat
  | .arr xs => 1 + countL xs
  | .obj l => 1 + countF l
  | .typed _ l => 1 + countF l
  | .ecma d l => 1 + countL d + countF l
  | _ => 1
def countL : List Val → Nat
  | [] => 0
  | v :: vs => count v + countL vs
def countF : List (Bytes × Val) → Nat
  | [] => 0
  | (_, v) :: l => count v + countF l
end

mutual
def Fits (n : Nat) : Val → Prop
  | .str s => s.length ≤ n
  | .bytes s => s.length ≤ n
  | .arr xs => FitsL n xs
  | .obj l => FitsF n l
  | .typed s l => s.length ≤ n ∧ FitsF n l
  | .ecma d l => FitsL n d ∧ FitsF n l
  | _ => True
def FitsL (n : Nat) : List Val → Prop
  | [] => True
  | v :: vs => Fits n v ∧ FitsL n vs
def FitsF (n : Nat) : List (Bytes × Val) → Prop
  | [] => True
  | (k, v) :: l => k.length ≤ n ∧ Fits n v ∧ FitsF n l
end

end Verif.Spec.Amf
