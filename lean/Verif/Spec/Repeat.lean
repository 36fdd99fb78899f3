import Verif.Spec.Amf3
/-!
# Values whose maps have no order

Vocabulary for C168.
-/
namespace Verif.Spec.Amf
open Verif Verif.Amf

mutual
/-- No map in the value has more than one member, at any level. -/
def OneMember : Val → Prop
  | .arr xs => OneMemberL xs
  | .obj kvs => kvs.length ≤ 1 ∧ OneMemberF kvs
  | .typed _ kvs => kvs.length ≤ 1 ∧ OneMemberF kvs
  | _ => True
def OneMemberL : List Val → Prop
  | [] => True
  | v :: vs => OneMember v ∧ OneMemberL vs
def OneMemberF : List (Bytes × Val) → Prop
  | [] => True
  | (_, v) :: r => OneMember v ∧ OneMemberF r
end

end Verif.Spec.Amf
