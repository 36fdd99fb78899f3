import Verif.Model.Go
/-! # Model of package `packet` -/
namespace Verif

/-- packet/packet.go:13 `PktVideo`. -/
def PktVideo : Int := 0
/-- packet/packet.go:14 `PktAudio`. -/
def PktAudio : Int := 1
/-- packet/packet.go:15 `PktMetadata`. -/
def PktMetadata : Int := 2
/-- packet/packet.go:5 `TagAudio`. -/
def TagAudio : UInt8 := 8
/-- packet/packet.go:6 `TagVideo`. -/
def TagVideo : UInt8 := 9
/-- packet/packet.go:7 `TagScriptDataAMF0`. -/
def TagScriptDataAMF0 : UInt8 := 18

/-- packet/packet.go:43-52 `VideoPacketHeader`: the answers of the interface methods.
Simplification: the methods are pure (they are for `flv.Tag`), so an implementation is its answers. -/
structure VideoHdr where
  isKeyFrame : Bool
  isInterFrame : Bool
  isSeqHdr : Bool
  isEndOfSeq : Bool
  isCodecAvc : Bool
  codecID : UInt8
  compositionTime : Int   -- int32
  deriving DecidableEq, Repr

/-- packet/packet.go:33-40 `AudioPacketHeader`: the answers of the interface methods. -/
structure AudioHdr where
  soundFormat : UInt8
  aacType : UInt8
  isSoundAAC : Bool
  isSoundMP3 : Bool
  isAACSeqHdr : Bool
  deriving DecidableEq, Repr

/-- packet/packet.go:30 `Header`: the dynamic type of a non-nil header implements
`VideoPacketHeader` and/or `AudioPacketHeader`; `none` makes the type assertion panic. -/
structure Header where
  video : Option VideoHdr
  audio : Option AudioHdr
  deriving DecidableEq, Repr

/-- packet/packet.go:19-27 `Packet`.  `header = none` is the nil interface. -/
structure Packet where
  type : Int
  timeStamp : UInt32 := 0
  baseline : UInt32 := 0
  streamID : UInt32 := 0
  header : Option Header := none
  data : Bytes := []
  media : Bytes := []
  deriving DecidableEq, Repr

/-- `p.Header.(packet.VideoPacketHeader)`: a failed assertion panics. -/
def Packet.asVideo (p : Packet) : Res VideoHdr :=
  match p.header with
  | some h => match h.video with
    | some v => .ok v
    | none => .panic
  | none => .panic

/-- `p.Header.(packet.AudioPacketHeader)`: a failed assertion panics. -/
def Packet.asAudio (p : Packet) : Res AudioHdr :=
  match p.header with
  | some h => match h.audio with
    | some v => .ok v
    | none => .panic
  | none => .panic

/-- packet/types.go:4-6 `Types`. -/
structure Types where
  types : UInt8
  deriving DecidableEq, Repr

namespace Types
/-- packet/types.go:9-13 `NewTypes`. -/
def new : Types := { types := 0 }
/-- packet/types.go:16-18 `Reset`. -/
def reset (_ : Types) : Types := { types := 0 }
/-- packet/types.go:21-23 `IsVideo`. -/
def isVideo (t : Types) : Types := { types := t.types ||| 1 }
/-- packet/types.go:26-28 `IsAudio`. -/
def isAudio (t : Types) : Types := { types := t.types ||| 2 }
/-- packet/types.go:31-40 `ToSlice`. -/
def toSlice (t : Types) : List Int :=
  (if t.types &&& 1 = 1 then [PktVideo] else []) ++
  (if t.types &&& 2 = 2 then [PktAudio] else [])
end Types

end Verif
