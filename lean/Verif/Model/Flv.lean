import Verif.Model.Packet
import Verif.Model.Amf0
/-! # Model of package `container/flv` -/
namespace Verif.Flv
open Verif.Amf

/-! ## Tags (container/flv/tag.go, type.go, demuxer.go) -/

/-- type.go:31 `KeyFrame`. -/
def KeyFrame : UInt8 := 1
/-- type.go:33 `InterFrame`. -/
def InterFrame : UInt8 := 2
/-- type.go:6 `AvcSeqHdr`. -/
def AvcSeqHdr : UInt8 := 0
/-- type.go:8 `AvcNalu`. -/
def AvcNalu : UInt8 := 1
/-- type.go:10 `AvcEndOfSeq`. -/
def AvcEndOfSeq : UInt8 := 2
/-- type.go:16 `AacSeqHdr`. -/
def AacSeqHdr : UInt8 := 0
/-- type.go:45 `AvcH264`. -/
def AvcH264 : UInt8 := 7
/-- type.go:51 `SoundMP3`. -/
def SoundMP3 : UInt8 := 2
/-- type.go:59 `SoundAAC`. -/
def SoundAAC : UInt8 := 10

/-- tag.go:20-106 `mediaTag`.  `compositionTime` is the bit pattern of the `int32`.  The fields of `flvTag`
(tag.go:12-17) are never set or read. -/
structure Tag where
  soundFormat : UInt8 := 0
  soundRate : UInt8 := 0
  soundSize : UInt8 := 0
  soundType : UInt8 := 0
  aacType : UInt8 := 0
  frameType : UInt8 := 0
  codecID : UInt8 := 0
  avcType : UInt8 := 0
  compositionTime : UInt32 := 0
  deriving DecidableEq, Repr

/-- tag.go:135: one step of the loop over `b[2:5]`. -/
def ctStep (ct : UInt32) (b : UInt8) : UInt32 := (ct <<< 8) + b.toUInt32

/-- tag.go:115-141 `parseVideoHeader`. -/
def parseVideoHeader (b : Bytes) : GoM Tag Int := do
  if b.length < 5 then GoM.fail .other
  else
    let flags ← GoM.lift (goIndex b 0)
    GoM.modify (fun t => { t with frameType := flags >>> 4, codecID := flags &&& 0xf })
    let t ← GoM.get
    if t.frameType = InterFrame ∨ t.frameType = KeyFrame then
      let b1 ← GoM.lift (goIndex b 1)
      let b2 ← GoM.lift (goIndex b 2)
      let b3 ← GoM.lift (goIndex b 3)
      let b4 ← GoM.lift (goIndex b 4)
      GoM.modify (fun t => { t with
        avcType := b1, compositionTime := ctStep (ctStep (ctStep t.compositionTime b2) b3) b4 })
      pure 5
    else pure 1

/-- tag.go:144-171 `parseAudioHeader`. -/
def parseAudioHeader (b : Bytes) : GoM Tag Int := do
  if b.length < 2 then GoM.fail .other
  else
    let flags ← GoM.lift (goIndex b 0)
    GoM.modify (fun t => { t with
      soundFormat := flags >>> 4, soundRate := (flags >>> 2) &&& 3, soundSize := (flags >>> 1) &&& 1,
      soundType := flags &&& 1 })
    let t ← GoM.get
    if t.soundFormat = SoundAAC then
      let b1 ← GoM.lift (goIndex b 1)
      GoM.modify (fun t => { t with aacType := b1 })
      pure 2
    else if t.soundFormat = SoundMP3 then pure 1
    else GoM.fail .other

/-- tag.go:237-249 `ParseMediaTagHeader`. -/
def parseMediaTagHeader (b : Bytes) (mediaType : Int) : GoM Tag Int :=
  if mediaType = PktVideo then parseVideoHeader b
  else if mediaType = PktAudio then parseAudioHeader b
  else if mediaType = PktMetadata then pure 0
  else GoM.fail .other

/-- tag.go:198-234: the answers of a tag as a `VideoPacketHeader`. -/
def Tag.video (t : Tag) : VideoHdr where
  isKeyFrame := t.frameType = KeyFrame                              -- 204-206
  isInterFrame := t.frameType = InterFrame                          -- 209-211
  isSeqHdr := t.frameType = KeyFrame ∧ t.avcType = AvcSeqHdr        -- 214-216
  isEndOfSeq := t.frameType = KeyFrame ∧ t.avcType = AvcEndOfSeq    -- 219-221
  isCodecAvc := t.codecID = AvcH264                                 -- 199-201
  codecID := t.codecID                                              -- 224-226
  compositionTime := if t.avcType = AvcNalu then t.compositionTime.toBitVec.toInt else 0  -- 229-234

/-- tag.go:174-196: the answers of a tag as an `AudioPacketHeader`. -/
def Tag.audio (t : Tag) : AudioHdr where
  soundFormat := t.soundFormat                -- 174-176
  aacType := t.aacType                        -- 189-191
  isSoundAAC := t.soundFormat = SoundAAC      -- 179-181
  isSoundMP3 := t.soundFormat = SoundMP3      -- 184-186
  isAACSeqHdr := t.aacType = AacSeqHdr        -- 194-196

/-- A `*Tag` as a `packet.Header`: it implements both interfaces. -/
def Tag.header (t : Tag) : Header := { video := some t.video, audio := some t.audio }

/-- demuxer.go:18-31 `Demux`; the packet is updated in place. -/
def demux : GoM Packet Unit := fun p =>
  match parseMediaTagHeader p.data p.type {} with
  | (.ok n, tag) => match goSlice p.data n p.data.length with
    | .ok m => (.ok (), { p with header := some tag.header, media := m })
    | _ => (.panic, { p with header := some tag.header })
  | (.err e, _) => (.err e, p)
  | (.panic, _) => (.panic, p)
  | (.diverge, _) => (.diverge, p)

/-! ## Muxer (container/flv/muxer.go) -/

/-- muxer.go:18-21 `muxer`. -/
structure Muxer where
  flvHdr : Bytes
  tagHdr : Bytes
  deriving DecidableEq, Repr

/-- muxer.go:24-34 `newMuxer`. -/
def Muxer.new : Muxer where
  flvHdr := [0x46, 0x4c, 0x56, 0x01, 0x00, 0x00, 0x00, 0x00, 0x09, 0, 0, 0, 0]
  tagHdr := List.replicate 11 0

/-- `binary.BigEndian.PutUint32(l[pos:pos+4], v)`. -/
def putU32 (l : Bytes) (pos : Nat) (v : UInt32) : Res Bytes :=
  if pos + 4 ≤ l.length then .ok (l.take pos ++ be32 v ++ l.drop (pos + 4)) else .panic

/-- muxer.go:41-50: the loop over the media types. -/
def headerLoop : List Int → GoM Muxer Unit
  | [] => pure ()
  | v :: mt => do
    let m ← GoM.get
    let b ← GoM.lift (goIndex m.flvHdr 4)
    if v = PktVideo then
      let h ← GoM.lift (goSet m.flvHdr 4 (b ||| 0x01))
      GoM.set { m with flvHdr := h }
      headerLoop mt
    else if v = PktAudio then
      let h ← GoM.lift (goSet m.flvHdr 4 (b ||| 0x04))
      GoM.set { m with flvHdr := h }
      headerLoop mt
    else GoM.fail .other

/-- muxer.go:37-53 `header`. -/
def header (mt : List Int) : GoM Muxer Bytes := do
  let m ← GoM.get
  let b ← GoM.lift (goIndex m.flvHdr 4)
  let h ← GoM.lift (goSet m.flvHdr 4 (b &&& 0xFA))
  GoM.set { m with flvHdr := h }
  headerLoop mt
  let m ← GoM.get
  pure m.flvHdr

/-- What `mux` works on: the muxer, the packet it was given and the writer it was given. -/
structure MuxEnv where
  m : Muxer
  p : Packet
  w : Sink

/-- `w.Write(b)` on the writer `mux` was given. -/
def MuxEnv.write (b : Bytes) : GoM MuxEnv Unit := fun e =>
  ((Sink.write b e.w).1, { e with w := (Sink.write b e.w).2 })

/-- The tables of `amf.NewEnDecAMF0()`. -/
def freshTables : St := St.buffer []

/-- muxer.go:98-118: the tag type; a metadata packet loses its `@setDataFrame` string. -/
def prepare : GoM MuxEnv UInt32 := do
  let e ← GoM.get
  if e.p.type = PktVideo then pure TagVideo.toUInt32
  else if e.p.type = PktAudio then pure TagAudio.toUInt32
  else if e.p.type = PktMetadata then
    let data ← GoM.lift (Amf0.delMetaHeader Amf0.decode freshTables e.p.data)
    GoM.set { e with p := { e.p with data := data } }
    pure TagScriptDataAMF0.toUInt32
  else GoM.fail .other

/-- muxer.go:97-155 `mux`. -/
def mux (pts : UInt32) : GoM MuxEnv Unit := do
  let typeID ← prepare
  let e ← GoM.get
  let dataLen := UInt32.ofNat e.p.data.length
  let h ← GoM.lift (putU32 e.m.tagHdr 0 ((typeID <<< 24) + (dataLen &&& 0x00ffffff)))
  let h ← GoM.lift (putU32 h 4 (((pts &&& 0x00ffffff) <<< 8) + (pts >>> 24)))
  GoM.set { e with m := { e.m with tagHdr := h } }
  MuxEnv.write h
  MuxEnv.write e.p.data
  let h' ← GoM.lift (putU32 h 0 (11 + dataLen))
  GoM.modify (fun e => { e with m := { e.m with tagHdr := h' } })
  let s ← GoM.lift (goSlice h' 0 4)
  MuxEnv.write s

/-- metadata.go:14 `OnMetaData`: the bytes of "onMetaData". -/
def onMetaData : Bytes := [0x6f, 0x6e, 0x4d, 0x65, 0x74, 0x61, 0x44, 0x61, 0x74, 0x61]

/-- muxer.go:57-77: what the buffer `pool` holds after the three `Encode` calls. -/
def metadataPool (md : List (Bytes × Val)) : GoM Sink Unit := do
  let _ ← Amf0.encode (.str Amf0.setDataFrame)
  let _ ← Amf0.encode (.str onMetaData)
  let _ ← Amf0.encode (.obj md)
  pure ()

/-- muxer.go:56-94 `metadata`. -/
def metadata (md : List (Bytes × Val)) : GoM Muxer Bytes := fun m =>
  match metadataPool md Sink.mem with
  | (.ok _, pool) =>
    let r := mux 0 { m := m, p := { type := PktMetadata, data := pool.out }, w := Sink.mem }
    (match r.1 with
      | .ok _ => .ok r.2.w.out
      | .err e => .err e
      | .panic => .panic
      | .diverge => .diverge, r.2.m)
  | (.err e, _) => (.err e, m)
  | (.panic, _) => (.panic, m)
  | (.diverge, _) => (.diverge, m)

/-! ## Mixer (container/flv/mixer.go) -/

/-- mixer.go:11-23 `Mixer` with its `cache`; the buffers are their contents. -/
structure Mixer where
  flv : Sink
  muxer : Muxer
  metadata : Bytes
  avcSeqHdr : Bytes
  aacSeqHdr : Bytes
  types : Types

namespace Mixer
/-- mixer.go:26-37 `NewMixer`. -/
def new (w : Sink) : Mixer := ⟨w, Muxer.new, [], [], [], Types.new⟩

/-- mixer.go:40-42 `SetWriter`. -/
def setWriter (w : Sink) (m : Mixer) : Mixer := { m with flv := w }

/-- mixer.go:45-47 `Mux`: result, mixer and packet afterwards. -/
def mux (p : Packet) (pts : UInt32) (m : Mixer) : Res Unit × Mixer × Packet :=
  let r := Flv.mux pts { m := m.muxer, p := p, w := m.flv }
  (r.1, { m with muxer := r.2.m, flv := r.2.w }, r.2.p)

/-- mixer.go:50-64 `SaveMetadata`. -/
def saveMetadata (md : List (Bytes × Val)) (m : Mixer) : Res Unit × Mixer :=
  let r := Flv.metadata md m.muxer
  match r.1 with
  | .ok b => (.ok (), { m with muxer := r.2, metadata := b })
  | .err e => (.err e, { m with muxer := r.2, metadata := [] })
  | .panic => (.panic, { m with muxer := r.2, metadata := [] })
  | .diverge => (.diverge, { m with muxer := r.2, metadata := [] })

/-- mixer.go:67-73 `SaveAVCHeader`. -/
def saveAVCHeader (p : Packet) (m : Mixer) : Res Unit × Mixer × Packet :=
  let r := Flv.mux 0 { m := m.muxer, p := p, w := Sink.mem }
  (r.1, { m with types := m.types.isVideo, muxer := r.2.m, avcSeqHdr := r.2.w.out }, r.2.p)

/-- mixer.go:76-82 `SaveAACHeader`. -/
def saveAACHeader (p : Packet) (m : Mixer) : Res Unit × Mixer × Packet :=
  let r := Flv.mux 0 { m := m.muxer, p := p, w := Sink.mem }
  (r.1, { m with types := m.types.isAudio, muxer := r.2.m, aacSeqHdr := r.2.w.out }, r.2.p)

/-- `m.flv.Write(b)`. -/
def write (b : Bytes) : GoM Mixer Unit := fun m =>
  ((Sink.write b m.flv).1, { m with flv := (Sink.write b m.flv).2 })

/-- mixer.go:102-124: a cached tag is written if there is one. -/
def writeCached (b : Bytes) : GoM Mixer Unit := if b.length > 0 then write b else pure ()

/-- mixer.go:85-127 `SetFlvHeader`. -/
def setFlvHeader : GoM Mixer Unit := do
  let m ← GoM.get
  let r := Flv.header m.types.toSlice m.muxer
  GoM.set { m with muxer := r.2 }
  let h ← GoM.lift r.1
  write h
  writeCached m.metadata
  writeCached m.avcSeqHdr
  writeCached m.aacSeqHdr
end Mixer

end Verif.Flv
