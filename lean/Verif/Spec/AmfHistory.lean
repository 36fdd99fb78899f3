import Verif.Model.Amf
/-!
# Decoder histories

A decoder value is created fresh and then used for any number of `Decode` calls, each on any reader.
`decode` is the call; what it returned does not matter for the history.
-/
namespace Verif.Spec.Amf
open Verif.Amf

/-- A decoder just returned by its constructor, about to read `data`. -/
def fresh (data : Bytes) (eofOnEmpty : Bool) (lim : Nat → Nat) : St := ⟨data, eofOnEmpty, lim, [], [], [], []⟩

/-- `t` is the decoder `s` after some further calls, about to read some data. -/
inductive Later (decode : GoM St Val) : St → St → Prop
  | refl (s data eofOnEmpty lim) : Later decode s { s with data := data, eofOnEmpty := eofOnEmpty, lim := lim }
  | step {s t} (data eofOnEmpty lim) : Later decode s t →
      Later decode s { (decode t).2 with data := data, eofOnEmpty := eofOnEmpty, lim := lim }

/-- A decoder after any history of calls, about to read some data. -/
def Reached (decode : GoM St Val) (s : St) : Prop := ∃ data eofOnEmpty lim, Later decode (fresh data eofOnEmpty lim) s

end Verif.Spec.Amf
