import Verif.Model.Parser
import Verif.Spec.Parser
/-! # Histories of parser calls: the states a client can reach -/
namespace Verif.Spec.Es
open Verif

/-- `SeqHdrs p hs`: the H.264 parser `p` was created by `NewParser` and has since accepted exactly the
configuration records with contents `hs` (SPS, PPS, bytes behind the PPS), among any other calls. -/
inductive SeqHdrs : H264.Parser → List (Bytes × Bytes × Bytes) → Prop
  | new : SeqHdrs .new []
  | header {p hs b sps pps ext} (w : Sink) : SeqHdrs p hs → Record b sps pps ext →
      SeqHdrs (H264.parse b true ⟨p, w⟩).2.p (hs ++ [(sps, pps, ext)])
  | rejected {p hs} (b : Bytes) (w : Sink) : SeqHdrs p hs → (H264.parse b true ⟨p, w⟩).1 ≠ .ok () →
      SeqHdrs (H264.parse b true ⟨p, w⟩).2.p hs
  | data {p hs} (b : Bytes) (w : Sink) : SeqHdrs p hs → SeqHdrs (H264.parse b false ⟨p, w⟩).2.p hs

/-- The AAC parser after a sequence of `Parse` calls. -/
def aacRun (s : Dev Aac.Parser) (calls : List (Bytes × UInt8)) : Dev Aac.Parser :=
  calls.foldl (fun s c => (Aac.parse c.1 c.2 s).2) s

/-- The codec parser after a sequence of `Parse` calls, each with its own writer. -/
def codecRun (c : Parser.CodecParser) (calls : List (Packet × Sink)) : Parser.CodecParser :=
  calls.foldl (fun c x => (Parser.parse x.1 ⟨c, x.2⟩).2.p) c

/-- An AAC or MP3 packet, as its header says. -/
def audioPacket (p : Packet) : Bool :=
  p.type == 1 && match p.header with
    | some ⟨_, some a⟩ => a.isSoundAAC || a.isSoundMP3
    | _ => false

end Verif.Spec.Es
