import Verif.Spec.Amf0Peer
/-!
# Messages without references

References count from the beginning of the message they are sent in ("Object Reference indices are local to each
message body.  Serializers and deserializers must reset reference indices to 0 each time a new message is
processed", AMF0 specification, section 4.1).  A message that is sent in full contains none.
-/
namespace Verif.Spec.Amf3

def PStr.Full : PStr → Prop
  | .lit _ => True
  | .ref _ => False

def PTrait.Full : PTrait → Prop
  | .new t ns => t.Full ∧ ∀ n ∈ ns, n.Full
  | .ref _ => False

mutual
def PVal.Full : PVal → Prop
  | .str s => s.Full
  | .arr assoc dense => FullA assoc ∧ FullL dense
  | .obj t vals => t.Full ∧ FullL vals
  | .again _ _ => False
  | _ => True
def FullL : List PVal → Prop
  | [] => True
  | v :: vs => v.Full ∧ FullL vs
def FullA : List (PStr × PVal) → Prop
  | [] => True
  | (k, v) :: r => k.Full ∧ v.Full ∧ FullA r
end

end Verif.Spec.Amf3

namespace Verif.Spec.Amf0

mutual
def P0.Full : P0 → Prop
  | .obj fs | .ecma _ fs | .typed _ fs => P0FullF fs
  | .strict xs => P0FullL xs
  | .amf3 v => v.Full
  | .ref _ => False
  | _ => True
def P0FullL : List P0 → Prop
  | [] => True
  | v :: vs => v.Full ∧ P0FullL vs
def P0FullF : List (Bytes × P0) → Prop
  | [] => True
  | (_, v) :: r => v.Full ∧ P0FullF r
end

end Verif.Spec.Amf0
