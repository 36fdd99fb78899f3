import Verif.Model.Amf0

/-!
# Registration of external handlers (amf/amf3.go:52-70, amf/amf0.go:33-42)

`Amf3.decode` and `Amf0.decode` take the handlers as a function or as none.  Here is the map itself: the field
`externalHandlers`, which the two constructors fill differently and `RegisterExternalHandler` assigns to.
-/

namespace Verif.AmfReg

open Verif.Amf

/-- amf3.go:57: the field `externalHandlers`; `none` is Go's nil map.  Entries of the same name: the first one is in force. -/
abbrev Registry := Option (List (Bytes × GoM St Val))

/-- amf3.go:61-65 `NewEnDecAMF3`: an empty map. -/
def newAMF3 : Registry := some []

/-- amf0.go:40-42 `NewEnDecAMF0`: the embedded `EnDecAMF3` is the zero value, its map is nil. -/
def newAMF0 : Registry := none

/-- amf3.go:68-70 `RegisterExternalHandler` (also promoted to `EnDecAMF0`): assignment to an entry of a nil map panics. -/
def register (name : Bytes) (f : GoM St Val) : Registry → Res Unit × Registry
  | none => (.panic, none)
  | some l => (.ok (), some ((name, f) :: l))

/-- amf3.go:356: looking a name up, also in a nil map. -/
def lookup (r : Registry) : Amf3.Handlers := fun n => (r.getD []).lookup n

end Verif.AmfReg
