import Verif.Model.SipsSlice
/-!
# The array behind the body of a message

`Verif/Model/SipsSlice.lean` has Go's slices and the arrays behind them.  Here the body of a message is such a slice, as it is in
the code, so that it can be said what a message carries when the program uses the array of the body for something else.
-/
namespace Verif.Sips
open Verif Verif.Str

/-- sips.go:20-45, base.go:16-24: a message.  Everything but the body is in `core` (whose `payload` is not used); `body` is
the slice `Payload`. -/
structure BodyMsg where
  core : Sip
  body : Slice

/-- The message at a moment: the body is what the array holds now. -/
def BodyMsg.view (s : BodyMsg) (m : Arrays) : Sip := { s.core with payload := s.body.get m }

/-- sips.go:272-274 `SetBody`: the slice itself is stored. -/
def BodyMsg.setBody (s : BodyMsg) (body : Slice) : BodyMsg := { s with body := body }

/-- easy.go:12-17, 31-36: header and body if they are not empty.  `NewSIP` leaves the body nil. -/
def BodyMsg.fill (s : Sip) (header : Option Hdr) (body : Slice) : BodyMsg :=
  let s := if (header.getD []).length > 0 then s.setHeader header else s
  let b : BodyMsg := ⟨s, ⟨0, 0, 0, 0⟩⟩
  if body.len > 0 then b.setBody body else b

/-- easy.go:4-20 `MakeRequest`. -/
def BodyMsg.makeRequest (method : UInt16) (request : Option Request) (header : Option Hdr) (body : Slice) : BodyMsg :=
  BodyMsg.fill { Sip.new with method := method, request := request, version := 2 } header body

/-- easy.go:23-39 `MakeResponse`. -/
def BodyMsg.makeResponse (code : Int) (header : Option Hdr) (body : Slice) : BodyMsg :=
  BodyMsg.fill { Sip.new with isResponse := true, version := 2, responseCode := code } header body

/-- sips.go:222-260 `Bytes`: the text is built in a buffer of its own (`bytes.NewBuffer(nil)`), an array with room for `spare`
more bytes, of which a slice is returned.  Simplified: the arrays that the buffer outgrows while it is filled are left out, no
slice of them remains. -/
def BodyMsg.bytes (U : Unicode) (order : Hdr → Hdr) (spare : Nat) (s : BodyMsg) (m : Arrays) : Res Slice × BodyMsg × Arrays :=
  let (w, c) := (s.view m).bytes U order
  let s := { s with core := c }
  match w with
  | .ok w => (.ok ⟨m.length, 0, w.length, w.length + spare⟩, s, m ++ [w ++ List.replicate spare 0])
  | .err e => (.err e, s, m)
  | .panic => (.panic, s, m)
  | .diverge => (.diverge, s, m)

/-- sips.go:107-171 `Parse`: `pieces` are the lines and the body that are appended to the buffer (their concatenation is what
has been taken from the reader).  With an error the message keeps its body; the buffer is then no longer reachable and left out. -/
def BodyMsg.parse (U : Unicode) (spare : Nat) (pieces : List Bytes) (s : BodyMsg) (r : Rd) (m : Arrays) :
    Res Unit × BodyMsg × Rd × Arrays :=
  let (e, c, r) := Sips.parse U (s.view m) r
  match e with
  | .ok () =>
    let (l, m) := storeMessage spare pieces c.contents.length m
    (.ok (), ⟨c, l.2⟩, r, m)
  | e => (e, { s with core := c }, r, m)

end Verif.Sips
