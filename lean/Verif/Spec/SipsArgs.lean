import Verif.Model.SipsArgs
/-!
# Calls on the arguments of addresses
-/
namespace Verif.Spec.Sips
open Verif.Sips

/-- A call of `Set` or `Del` on some argument map. -/
inductive ArgCall where
  | set (key value : Bytes)
  | del (key : Bytes)

/-- The maps after calls, each through the object with the map at the given address. -/
def ArgCall.run : List (Nat × ArgCall) → ArgMaps → ArgMaps
  | [], M => M
  | (a, .set k v) :: cs, M => ArgCall.run cs (M.setAt a k v)
  | (a, .del k) :: cs, M => ArgCall.run cs (M.delAt a k)

end Verif.Spec.Sips
