import Verif.Model.Packet
import Verif.Model.Aac
/-! # Model of package `parser` -/
namespace Verif
namespace Parser

/-- parser/parser.go:15-19 `CodecParser`; `none` is the nil pointer. -/
structure CodecParser where
  aac : Option Aac.Parser
  mp3 : Option Mp3.Parser
  h264 : Option H264.Parser
  deriving DecidableEq, Repr

/-- parser/parser.go:22-24 `NewCodecParser`. -/
def CodecParser.new : CodecParser := { aac := none, mp3 := none, h264 := none }

/-- Run a method of the H.264 parser object held in the codec parser. -/
def onH264 (m : GoM (Dev H264.Parser) Unit) : GoM (Dev CodecParser) Unit := fun s =>
  match m ⟨s.p.h264.getD .new, s.w⟩ with
  | (r, d) => (r, ⟨{ s.p with h264 := some d.p }, d.w⟩)

/-- Run a method of the AAC parser object held in the codec parser. -/
def onAac (m : GoM (Dev Aac.Parser) Unit) : GoM (Dev CodecParser) Unit := fun s =>
  match m ⟨s.p.aac.getD .new, s.w⟩ with
  | (r, d) => (r, ⟨{ s.p with aac := some d.p }, d.w⟩)

/-- Run a method of the MP3 parser object held in the codec parser. -/
def onMp3 (m : GoM Mp3.Parser Unit) : GoM (Dev CodecParser) Unit := fun s =>
  match m (s.p.mp3.getD .new) with
  | (r, q) => (r, ⟨{ s.p with mp3 := some q }, s.w⟩)

/-- parser/parser.go:27-73 `CodecParser.Parse`.  The lazily created parsers are `getD .new`.
Simplification: `p.Media` is never the nil slice here (`flv` demuxing sub-slices `p.Data`); `media = []`
is an empty non-nil slice. -/
def parse (p : Packet) : GoM (Dev CodecParser) Unit :=
  if p.header = none then GoM.fail .other
  else if p.type = PktVideo then do
    let vh ← GoM.lift p.asVideo
    if vh.isCodecAvc then onH264 (H264.parse p.media vh.isSeqHdr)
    else GoM.fail .other
  else if p.type = PktAudio then do
    let ah ← GoM.lift p.asAudio
    if ah.isSoundAAC then onAac (Aac.parse p.media ah.aacType)
    else if ah.isSoundMP3 then onMp3 (Mp3.parse p.media)
    else GoM.fail .other
  else GoM.fail .other

/-- parser/parser.go:76-86 `CodecParser.SampleRate`. -/
def CodecParser.sampleRate (c : CodecParser) : Res Int :=
  match c.aac, c.mp3 with
  | none, none => .err .other
  | some a, _ => a.sampleRate
  | none, some m => .ok m.sampleRate

end Parser
end Verif
