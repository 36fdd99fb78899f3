import Verif.Model.SipsMsg
/-!
# Package `sips`: header maps shared between messages

A Go map is a reference: `SetHeader`, `MakeRequest` and `MakeResponse` keep the caller's map, they do not copy it.  `Model/SipsMsg` treats
the header map as part of the message; here the maps live in a store and messages hold the address of their map, so
that what is done through one message is seen through the others.
-/
namespace Verif.Sips
open Verif.Str

/-- The header maps of a program; the address of a map is its index. -/
abbrev Maps := List Hdr

/-- sips.go:20-45 `SIP`: `addr` is the field `Headers` (`none` is the nil map); `core` holds the other fields (its own `headers` is
not used). -/
structure Msg where
  addr : Option Nat
  core : Sip

/-- The message as it is seen with the maps of the store. -/
def Msg.view (M : Maps) (m : Msg) : Sip := { m.core with headers := m.addr.map fun a => M.getD a [] }

/-- The map at an address; the nil map has no entries. -/
def Maps.read (M : Maps) : Option Nat → Hdr
  | some a => M.getD a []
  | none => []

/-- sips.go:48-52 `NewSIP`: a message with a map of its own. -/
def Msg.new (M : Maps) : Msg × Maps := (⟨some M.length, Sip.new⟩, M ++ [[]])

/-- sips.go:267-269 `SetHeader`. -/
def Msg.setHeader (m : Msg) (a : Option Nat) : Msg := { m with addr := a }

/-- easy.go:12-17, 31-36: header and body if they are not empty. -/
def Msg.fill (M : Maps) (m : Msg) (header : Option Nat) (body : Bytes) : Msg :=
  let m := if (Maps.read M header).length > 0 then m.setHeader header else m
  if body.length > 0 then { m with core := m.core.setBody body } else m

/-- easy.go:4-20 `MakeRequest` with the map at the address `header`. -/
def Msg.makeRequest (M : Maps) (method : UInt16) (request : Option Request) (header : Option Nat) (body : Bytes) : Msg × Maps :=
  let (m, M') := Msg.new M
  (Msg.fill M' { m with core := { m.core with method := method, request := request, version := 2 } } header body, M')

/-- easy.go:23-39 `MakeResponse` with the map at the address `header`. -/
def Msg.makeResponse (M : Maps) (code : Int) (header : Option Nat) (body : Bytes) : Msg × Maps :=
  let (m, M') := Msg.new M
  (Msg.fill M' { m with core := { m.core with isResponse := true, version := 2, responseCode := code } } header body, M')

/-- sips.go:222-264 `Bytes`: the bytes, and the maps afterwards (the content length is stored in the message's map). -/
def Msg.bytes (U : Unicode) (order : Hdr → Hdr) (M : Maps) (m : Msg) : Res Bytes × Maps :=
  let (r, s) := (m.view M).bytes U order
  match m.addr, s.headers with
  | some a, some h => (r, M.set a h)
  | _, _ => (r, M)

/-- header.go:79-82 `SetFirstHeader` on the map at `a`. -/
def Maps.setFirst (U : Unicode) (M : Maps) (a : Nat) (name value : Bytes) : Maps := M.set a (setFirstHeader U (M.getD a []) name value)

/-- header.go:160-164 `CopyFrom` from the map at `src` to the map at `dst`, which may be the same. -/
def Maps.copy (U : Unicode) (dst src : Nat) : List Bytes → Maps → Maps
  | [], M => M
  | v :: names, M => Maps.copy U dst src names (Maps.setFirst U M dst v (getFirstHeader U (M.getD src []) v))

/-- A program that writes messages one after the other, each with the map order of that moment. -/
def writeAll (U : Unicode) : List (Msg × (Hdr → Hdr)) → Maps → Maps
  | [], M => M
  | (m, order) :: ms, M => writeAll U ms (m.bytes U order M).2

end Verif.Sips
