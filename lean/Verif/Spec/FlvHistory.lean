import Verif.Spec.Flv
import Verif.Model.Flv
/-!
# Histories of calls on an FLV `Mixer`

What a user of the mixer can observe (which calls succeeded, and the packets afterwards) determines what
the writer should contain and what the mixer should remember.  `Track` is that account.
-/
namespace Verif.Spec.Flv
open Verif Verif.Amf

/-- The calls of the `Mixer` API. -/
inductive Op where
  | setWriter (w : Sink)
  | mux (p : Packet) (pts : UInt32)
  | saveMetadata (md : List (Bytes × Val))
  | saveAVCHeader (p : Packet)
  | saveAACHeader (p : Packet)
  | setFlvHeader

/-- A call: its result, the mixer afterwards and the packet given to it afterwards (if any). -/
def call : Op → Flv.Mixer → Res Unit × Flv.Mixer × Packet
  | .setWriter w, m => (.ok (), m.setWriter w, { type := 0 })
  | .mux p pts, m => m.mux p pts
  | .saveMetadata md, m => ((m.saveMetadata md).1, (m.saveMetadata md).2, { type := 0 })
  | .saveAVCHeader p, m => m.saveAVCHeader p
  | .saveAACHeader p, m => m.saveAACHeader p
  | .setFlvHeader, m => ((Flv.Mixer.setFlvHeader m).1, (Flv.Mixer.setFlvHeader m).2, { type := 0 })

/-- What is written: a file header or a tag. -/
inductive Item where
  | header (video audio : Bool)
  | tag (t : TagRec)
  deriving DecidableEq, Repr

/-- The bytes of an item. -/
def Item.bytes : Item → Bytes
  | .header v a => Spec.Flv.header v a
  | .tag t => t.bytes

/-- The account: the last saved metadata, AVC and AAC tags, whether `SaveAVCHeader` and `SaveAACHeader` have
been called, what the current writer contained when it was set, and what has been written to it since. -/
structure Track where
  script : Option TagRec := none
  avc : Option TagRec := none
  aac : Option TagRec := none
  video : Bool := false
  audio : Bool := false
  base : Bytes := []
  items : List Item := []

/-- The tag of a packet: video (packet type 0) is tag type 9, audio (1) is 8, metadata (2) is 18. -/
def tagOf (p : Packet) (time : Nat) : TagRec :=
  ⟨if p.type = 0 then 9 else if p.type = 1 then 8 else 18, time, p.data⟩

/-- The saved tags in the order they are written. -/
def Track.saved (t : Track) : List TagRec := t.script.toList ++ t.avc.toList ++ t.aac.toList

/-- The account after a call with the given success and packet afterwards.  `enc md` are the AMF0 bytes of the
metadata object. -/
def Track.step (enc : List (Bytes × Val) → Bytes) (t : Track) (op : Op) (ok : Bool) (p' : Packet) : Track :=
  match op with
  | .setWriter w => { t with base := w.out, items := [] }
  | .mux _ pts => if ok then { t with items := t.items ++ [.tag (tagOf p' pts.toNat)] } else t
  | .saveMetadata md => { t with script := if ok then some ⟨18, 0, onMetaData (enc md)⟩ else none }
  | .saveAVCHeader _ => { t with video := true, avc := if ok then some (tagOf p' 0) else none }
  | .saveAACHeader _ => { t with audio := true, aac := if ok then some (tagOf p' 0) else none }
  | .setFlvHeader => { t with items := t.items ++ .header t.video t.audio :: t.saved.map .tag }

/-- Whether a call succeeded. -/
def okRes : Res Unit → Bool
  | .ok _ => true
  | _ => false

/-- The calls in order, with the account. -/
def run (enc : List (Bytes × Val) → Bytes) : List Op → Flv.Mixer × Track → Flv.Mixer × Track
  | [], mt => mt
  | op :: ops, mt =>
    let r := call op mt.1
    run enc ops (r.2.1, mt.2.step enc op (okRes r.1) r.2.2)

/-- A new mixer with writer `w`, and its account. -/
def start (w : Sink) : Flv.Mixer × Track := (Flv.Mixer.new w, { base := w.out })

/-- Data fits into FLV tags. -/
def Op.Small (enc : List (Bytes × Val) → Bytes) : Op → Prop
  | .mux p _ | .saveAVCHeader p | .saveAACHeader p => p.data.length < 2 ^ 24
  | .saveMetadata md => (enc md).length < 2 ^ 24 - 13
  | _ => True

/-- Writers do not fail. -/
def Op.Reliable : Op → Prop
  | .setWriter w => w.Reliable
  | _ => True

end Verif.Spec.Flv
