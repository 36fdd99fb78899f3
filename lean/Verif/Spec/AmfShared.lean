import Verif.Model.Amf
/-!
# Finite values

`Stands heap v w`: the value `v`, in which `shared n` is the map that has the entries `heap n`, is the tree `w`.  A value that
contains itself is no tree.
-/
namespace Verif.Spec.Amf
open Verif.Amf

mutual
inductive Stands (heap : Nat → Option (List (Bytes × Val))) : Val → Val → Prop
  | nil : Stands heap .nil .nil
  | bool (b : Bool) : Stands heap (.bool b) (.bool b)
  | f64 (f : UInt64) : Stands heap (.f64 f) (.f64 f)
  | str (s : Bytes) : Stands heap (.str s) (.str s)
  | arr {xs ys} : StandsL heap xs ys → Stands heap (.arr xs) (.arr ys)
  | obj {l l'} : StandsF heap l l' → Stands heap (.obj l) (.obj l')
  | typed {l l'} (t : Bytes) : StandsF heap l l' → Stands heap (.typed t l) (.typed t l')
  | shared {n l l'} : heap n = some l → StandsF heap l l' → Stands heap (.shared n) (.obj l')
inductive StandsL (heap : Nat → Option (List (Bytes × Val))) : List Val → List Val → Prop
  | nil : StandsL heap [] []
  | cons {v w vs ws} : Stands heap v w → StandsL heap vs ws → StandsL heap (v :: vs) (w :: ws)
inductive StandsF (heap : Nat → Option (List (Bytes × Val))) : List (Bytes × Val) → List (Bytes × Val) → Prop
  | nil : StandsF heap [] []
  | cons {k v w l l'} : Stands heap v w → StandsF heap l l' → StandsF heap ((k, v) :: l) ((k, w) :: l')
end

mutual
/-- No AMF3 arrays inside, and no dates farther than 2^53 milliseconds from 1970. -/
def NoArray : Val → Prop
  | .ecma _ _ => False
  | .time sec => (sec * 1000).natAbs ≤ 2 ^ 53
  | .arr xs => NoArrayL xs
  | .obj l => NoArrayF l
  | .typed _ l => NoArrayF l
  | _ => True
def NoArrayL : List Val → Prop
  | [] => True
  | v :: vs => NoArray v ∧ NoArrayL vs
def NoArrayF : List (Bytes × Val) → Prop
  | [] => True
  | (_, v) :: l => NoArray v ∧ NoArrayF l
end

mutual
/-- No dates inside. -/
def NoDate : Val → Prop
  | .time _ => False
  | .arr xs => NoDateL xs
  | .obj l => NoDateF l
  | .typed _ l => NoDateF l
  | _ => True
def NoDateL : List Val → Prop
  | [] => True
  | v :: vs => NoDate v ∧ NoDateL vs
def NoDateF : List (Bytes × Val) → Prop
  | [] => True
  | (_, v) :: l => NoDate v ∧ NoDateF l
end

mutual
/-- All member names inside are ones AMF0 can carry: 1 to 65535 bytes. -/
def ShortNames : Val → Prop
  | .arr xs => ShortNamesL xs
  | .obj l => ShortNamesF l
  | .typed t l => t.length ≤ 65535 ∧ ShortNamesF l
  | _ => True
def ShortNamesL : List Val → Prop
  | [] => True
  | v :: vs => ShortNames v ∧ ShortNamesL vs
def ShortNamesF : List (Bytes × Val) → Prop
  | [] => True
  | (k, v) :: l => (1 ≤ k.length ∧ k.length ≤ 65535) ∧ ShortNames v ∧ ShortNamesF l
end

end Verif.Spec.Amf
