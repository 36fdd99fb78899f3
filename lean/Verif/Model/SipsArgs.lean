import Verif.Model.Sips
/-!
# Package `sips`: argument maps shared between addresses and request URIs

A Go map is a reference: `ToRequest` and `ToUser` hand on the argument map, they do not copy it.  `Model/Sips` treats the arguments as
part of the address; here the maps live in a store and addresses hold the index of their map, so that what is set through one
object is seen through the others.
-/
namespace Verif.Sips
open Verif.Str

/-- The argument maps of a program; the address of a map is its index. -/
abbrev ArgMaps := List Args

/-- user.go:19-27 `SIPUser`: `addr` is the field `Args`; `core` holds the other fields (its own `args` is not used). -/
structure UserAt where
  addr : Nat
  core : User

/-- request.go:26-33 `SIPRequest`: as `UserAt`. -/
structure RequestAt where
  addr : Nat
  core : Request

/-- The address as it is seen with the maps of the store. -/
def UserAt.view (M : ArgMaps) (u : UserAt) : User := { u.core with args := M.getD u.addr [] }
/-- The request URI as it is seen with the maps of the store. -/
def RequestAt.view (M : ArgMaps) (r : RequestAt) : Request := { r.core with args := M.getD r.addr [] }

/-- user.go:44-132 `NewSIPUser`: the address has a map made by it or by `ParseArgs`.  A map made and replaced is left out. -/
def UserAt.new (M : ArgMaps) (uri : Bytes) : Res (UserAt × ArgMaps) := do
  let u ← newSIPUser uri
  .ok (⟨M.length, u⟩, M ++ [u.args])

/-- request.go:41-105 `NewSIPRequest`: as `UserAt.new`. -/
def RequestAt.new (M : ArgMaps) (uri : Bytes) : Res (RequestAt × ArgMaps) := do
  let r ← newSIPRequest uri
  .ok (⟨M.length, r⟩, M ++ [r.args])

/-- user.go:179-190 `ToRequest`: the map is the same one (line 186); the map that `NewSIPRequest("")` makes is dropped. -/
def UserAt.toRequest (u : UserAt) : RequestAt := ⟨u.addr, u.core.toRequest⟩
/-- request.go:139-150 `ToUser`: the map is the same one (line 146). -/
def RequestAt.toUser (r : RequestAt) : UserAt := ⟨r.addr, r.core.toUser⟩

/-- header_args.go:105-107 `Set` on the map at `a`. -/
def ArgMaps.setAt (M : ArgMaps) (a : Nat) (key value : Bytes) : ArgMaps := M.set a ((M.getD a []).set key value)
/-- header_args.go:94-96 `Del` on the map at `a`. -/
def ArgMaps.delAt (M : ArgMaps) (a : Nat) (key : Bytes) : ArgMaps := M.set a ((M.getD a []).del key)

end Verif.Sips
