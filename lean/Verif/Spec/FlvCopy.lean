import Verif.Spec.FlvSegments
/-!
# Copying a file

A program that reads the tags of an FLV file and gives each of them to `Mux`.
-/
namespace Verif.Spec.Flv
open Verif Verif.Amf

/-- The packet for a tag: tag type 9 is video (packet type 0), 8 is audio (1), 18 is script data (2). -/
def TagRec.packet (t : TagRec) : Packet := { type := if t.type = 9 then 0 else if t.type = 8 then 1 else 2, data := t.payload }

/-- The calls that write the tags again. -/
def again (ts : List TagRec) : List Op := ts.map fun t => .mux t.packet (UInt32.ofNat t.time)

end Verif.Spec.Flv
