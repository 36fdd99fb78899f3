import Verif.Model.Amf3
import Verif.Model.H264
import Verif.Spec.Amf3Peer
import Verif.Spec.Amf0Peer
/-!
# Decoders and parsers that are used for one message after the other, and how much they keep
-/
namespace Verif.Spec.Amf
open Verif Verif.Amf

/-- The number of things that a decoder keeps: the entries of its four tables (the references of AMF0; the strings,
complex values and classes of AMF3). -/
def held (s : St) : Nat := s.refs0.length + s.strTab.length + s.objTab.length + s.traits.length

/-- The decoder is given the messages one after the other by a reader of the given kind (`Model/Amf.lean`): what it answers for
each of them, and its state in the end. -/
def session {α : Type} (eofOnEmpty : Bool) (lim : Nat → Nat) (decode : GoM St α) : List Bytes → St → List (Res α) × St
  | [], s => ([], s)
  | d :: ds, s =>
    let (r, s') := decode { s with data := d, eofOnEmpty := eofOnEmpty, lim := lim }
    let (rs, s'') := session eofOnEmpty lim decode ds s'
    (r :: rs, s'')

end Verif.Spec.Amf

namespace Verif.Spec.Amf3

/-- The number of things that have been sent in AMF3 so far. -/
def Sofar.size (t : Sofar) : Nat := t.strs.length + t.vals.length + t.classes.length

end Verif.Spec.Amf3

namespace Verif.Spec.Amf0

/-- The number of things that have been sent in AMF0 so far. -/
def Known.size (t : Known) : Nat := t.complex.length + t.amf3.size

end Verif.Spec.Amf0

namespace Verif.Spec.Es
open Verif

/-- The H.264 parser after it has been given the same sequence header `n` times. -/
def announced (b : Bytes) (w : Sink) : Nat → H264.Parser → H264.Parser
  | 0, p => p
  | n + 1, p => announced b w n (H264.parse b true ⟨p, w⟩).2.p

end Verif.Spec.Es
