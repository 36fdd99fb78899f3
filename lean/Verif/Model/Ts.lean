import Verif.Model.Crc
import Verif.Model.Packet
/-!
# Model of packages `container/ts/table` and `container/ts` (muxer.go, sync.go)

Simplifications: `int64` timestamps are integers; `encodeTs` and `WritePcr` only shift, mask and subtract a
constant from a larger value, so this is exact for every `int64`.  Slices that `PAT`, `PMT`, `SDT` and `Mux`
hand out alias the muxer's buffers; the model returns their contents at that moment (valid until the next call).
-/
namespace Verif.Ts

/-! ## container/ts/table -/

/-- `byte(x)` of a Go signed integer. -/
def toByte (x : Int) : UInt8 := UInt8.ofNat (x % 256).toNat
/-- `uint16(x)` of a Go signed integer. -/
def toU16 (x : Int) : UInt16 := UInt16.ofNat (x % 65536).toNat

/-- pes.go:8 `videoSID`. -/
def videoSID : UInt8 := 0xe0
/-- pes.go:9 `audioSID`. -/
def audioSID : UInt8 := 0xc0

/-- pes.go:13-16 `Pes`. -/
structure Pes where
  tsHeader : Bytes
  pesHeader : Bytes
  deriving DecidableEq, Repr

/-- pes.go:19-27 `NewPes`. -/
def Pes.new : Pes where
  tsHeader := [0x47, 0x00, 0x00, 0x10]
  pesHeader := [0x00, 0x00, 0x01, audioSID, 0xff, 0xff, 0x80, 0x80, 0x05, 0x00, 0x00, 0x00, 0x00, 0x00, 0x00, 0x00,
    0x00, 0x00, 0x00]

/-- pes.go:66-89 `encodeTs`: a 33-bit time stamp in 40 bits. -/
def encodeTs (flag : UInt8) (ts0 : Int) : Bytes :=
  let ts := if ts0 > 0x1ffffffff then ts0 - 0x1ffffffff else ts0
  let v1 : UInt16 := ((flag &&& 0xc0) >>> 2).toUInt16 ||| ((toU16 (ts / 2 ^ 30) &&& 0x07) <<< 1) ||| 1
  let v2 : UInt16 := ((toU16 (ts / 2 ^ 15) &&& 0x7fff) <<< 1) ||| 1
  let v3 : UInt16 := (toU16 (ts % 2 ^ 15) <<< 1) ||| 1
  [v1.toUInt8, (v2 >>> 8).toUInt8, v2.toUInt8, (v3 >>> 8).toUInt8, v3.toUInt8]

/-- `b[i] |= v`. -/
def orAt (b : Bytes) (i : Nat) (v : UInt8) : Res Bytes := do
  let x ← goIndex b i
  goSet b i (x ||| v)

/-- pes.go:30-63 `GeneratePesHeader`: the header length and the header afterwards. -/
def Pes.generate (pe : Pes) (mt : Int) (mediaDataLen : Nat) (pts dts : Int) : Res (Nat × Pes) := do
  if mt ≠ PktVideo ∧ mt ≠ PktAudio then
    pure (0, pe)
  else
    let h ← goSet pe.pesHeader 3 (if mt = PktVideo then videoSID else audioSID)
    let f ← goIndex h 7
    let h ← goCopyAt h 9 (encodeTs f pts)
    let h ←
      if mt = PktVideo ∧ pts ≠ dts then do
        let h ← orAt h 7 0x40
        let l ← goIndex h 8
        let h ← goSet h 8 (l + 0x05)
        let f ← goIndex h 7
        goCopyAt h 14 (encodeTs f dts)
      else pure h
    let l ← goIndex h 8
    let size0 := 3 + l.toNat + mediaDataLen
    let size := if size0 > 0xffff then 0 else size0
    let h ← goSet h 4 (UInt8.ofNat (size / 256))
    let h ← goSet h 5 (UInt8.ofNat size)
    pure (6 + 3 + l.toNat, { pe with pesHeader := h })

/-- pes.go:97-99: the loop of `WriteStuff` on `buf`, `src` starting at `off`: indices `i` to `last`. -/
def stuffLoop (off last : Nat) : Nat → Nat → Bytes → Res Bytes
  | 0, _, _ => .diverge
  | fuel + 1, i, buf =>
    if i ≤ last then do
      let b ← goSet buf (off + i : Nat) 0xff
      stuffLoop off last fuel (i + 1) b
    else .ok buf

/-- pes.go:92-101 `WriteStuff(buf[off:], remainBytes)`; `buf[off:]` panics if `off` is too large. -/
def writeStuff (buf : Bytes) (off : Nat) (remainBytes : UInt8) : Res Bytes := do
  if off > buf.length then .panic
  else
    let n := remainBytes - 1
    let b ← goSet buf off n
    if n > 0 then
      let b ← goSet b (off + 1 : Nat) 0x00
      stuffLoop off n.toNat 256 2 b
    else pure b

/-- pes.go:104-111 `WritePcr(buf[off:], pcr)`. -/
def writePcr (buf : Bytes) (off : Nat) (pcr : Int) : Res Bytes := do
  let b ← goSet buf off (toByte (pcr / 2 ^ 25))
  let b ← goSet b (off + 1 : Nat) (toByte (pcr / 2 ^ 17))
  let b ← goSet b (off + 2 : Nat) (toByte (pcr / 2 ^ 9))
  let b ← goSet b (off + 3 : Nat) (toByte (pcr / 2 ^ 1))
  let b ← goSet b (off + 4 : Nat) (toByte (pcr % 2 * 128) ||| 0x7e)
  goSet b (off + 5 : Nat) 0x00

/-- descriptor.go:26-58 `Descriptor.Service`: what it appends to the buffer (a `bytes.Buffer` never fails). -/
def service (serviceType : UInt8) (provider name : Bytes) : Bytes :=
  let pl := UInt8.ofNat provider.length
  let nl := UInt8.ofNat name.length
  let dl := pl + nl + 3
  [0x48, dl, serviceType] ++ [pl] ++ provider ++ [nl] ++ name

/-- descriptor.go:61-76 `Descriptor.NetworkName`: what it appends. -/
def networkName (name : Bytes) : Bytes := [0x40, UInt8.ofNat name.length] ++ name

/-- descriptor.go:79-95 `Descriptor.CountryAvailability`: what it appends. -/
def countryAvailability (isAvailable : Bool) (countryCode : UInt32) : Bytes :=
  [0x49, 4, if isAvailable then 0x80 else 0] ++ be32 (countryCode &&& 0x0FFF)

/-- pat.go:16 `TsHeader`. -/
def patTsHeader : Bytes := [0x47, 0x40, 0x00, 0x10, 0x00]
/-- pat.go:21 `PatHeader`. -/
def patHeader : Bytes := [0x00, 0xb0, 0x0d, 0x00, 0x01, 0xc1, 0x00, 0x00, 0x00, 0x01, 0xf0, 0x01]
/-- pmt.go:16 `TsHeader`. -/
def pmtTsHeader : Bytes := [0x47, 0x50, 0x01, 0x10, 0x00]
/-- pmt.go:20 `PmtHeader`. -/
def pmtHeader : Bytes := [0x02, 0xb0, 0xff, 0x00, 0x01, 0xc1, 0x00, 0x00, 0xe1, 0x00, 0xf0, 0x00]
/-- sdt.go:16 `TsHeader`. -/
def sdtTsHeader : Bytes := [0x47, 0x40, 0x11, 0x10, 0x00]
/-- sdt.go:20-21 `SdtHeader`. -/
def sdtHeader : Bytes := [0x42, 0xF0, 0x00, 0x00, 0x01, 0xC1, 0x00, 0x00, 0xFF, 0x01,
  0xFF, 0x00, 0x01, 0xFC, 0x80, 0x00]
/-- program.go:16 `Avc`. -/
def progAvc : Bytes := [0x1b, 0xe1, 0x00, 0xf0, 0x00]
/-- program.go:21 `Aac`. -/
def progAac : Bytes := [0x0f, 0xe1, 0x01, 0xf0, 0x00]

/-! ## container/ts/muxer.go -/

/-- muxer.go:14 `tsDefaultDataLen`. -/
def tsDefaultDataLen : Nat := 184
/-- muxer.go:15 `tsPacketLen`. -/
def tsPacketLen : Nat := 188
/-- muxer.go:19 `videoPID`. -/
def videoPID : UInt16 := 0x100
/-- muxer.go:20 `audioPID`. -/
def audioPID : UInt16 := 0x101

/-- muxer.go:24-33 `Muxer`; the arrays have 188 bytes. -/
structure Muxer where
  videoCc : UInt8 := 0
  audioCc : UInt8 := 0
  patCc : UInt8 := 0
  pmtCc : UInt8 := 0
  sdt : Bytes := List.replicate 188 0
  pat : Bytes := List.replicate 188 0
  pmt : Bytes := List.replicate 188 0
  tsPacket : Bytes := List.replicate 188 0
  deriving DecidableEq, Repr

/-- muxer.go:36-38 `NewMuxer`. -/
def Muxer.new : Muxer := {}

/-- The muxer and the writer it was given. -/
structure Env where
  m : Muxer
  w : Sink

/-- Change the packet buffer. -/
def updPacket (f : Bytes → Res Bytes) : GoM Env Unit := do
  let e ← GoM.get
  let b ← GoM.lift (f e.m.tsPacket)
  GoM.set { e with m := { e.m with tsPacket := b } }

/-- `w.Write(b)`. -/
def Env.write (b : Bytes) : GoM Env Unit := fun e =>
  ((Sink.write b e.w).1, { e with w := (Sink.write b e.w).2 })

/-- muxer.go:83-98: the continuity counter of the stream. -/
def bumpCc (type : Int) : GoM Env UInt8 := do
  let e ← GoM.get
  if type = PktVideo then
    let c := e.m.videoCc + 1
    let c := if c > 0xf then 0 else c
    GoM.set { e with m := { e.m with videoCc := c } }
    pure c
  else if type = PktAudio then
    let c := e.m.audioCc + 1
    let c := if c > 0xf then 0 else c
    GoM.set { e with m := { e.m with audioCc := c } }
    pure c
  else pure 0

/-- The variables of the loop muxer.go:73. -/
structure Loop where
  total : Nat
  hdrLen : Nat
  headIndex : Nat
  dataIndex : Nat
  first : Bool
  deriving DecidableEq, Repr

/-- muxer.go:100-118: the position `i` after the adaptation field with the PCR, if there is one. -/
def putPcr (dts : Int) (withPcr : Bool) : GoM Env UInt8 := do
  if withPcr then
    updPacket (fun b => orAt b 3 0x20)
    updPacket (fun b => goSet b 4 0x7)
    updPacket (fun b => goSet b 5 0x50)
    updPacket (fun b => if 6 > b.length then .panic else writePcr b 6 dts)
    let e ← GoM.get
    let l ← GoM.lift (goIndex e.m.tsPacket 4)
    pure (4 + (1 + l))
  else pure 4

/-- muxer.go:120-136: stuffing; returns `i` and `maxPayloadLen`. -/
def putStuff (total : Nat) (i : UInt8) : GoM Env (UInt8 × UInt8) := do
  let maxPayloadLen := 188 - i
  if total < tsDefaultDataLen then
    let remainBytes := maxPayloadLen - UInt8.ofNat total
    updPacket (fun b => orAt b 3 0x20)
    updPacket (fun b => writeStuff b i.toNat remainBytes)
    pure (i + remainBytes, UInt8.ofNat total)
  else pure (i, maxPayloadLen)

/-- muxer.go:138-163: the PES header; returns `i`, `maxPayloadLen` and the loop variables. -/
def putHeader (pes : Pes) (l : Loop) (i maxPayloadLen : UInt8) : GoM Env (UInt8 × UInt8 × Loop) := do
  if l.hdrLen > 0 then
    let n := if UInt8.ofNat l.hdrLen ≤ maxPayloadLen then UInt8.ofNat l.hdrLen else maxPayloadLen
    let s ← GoM.lift (goSlice pes.pesHeader l.headIndex (l.headIndex + n.toNat : Nat))
    updPacket (fun b => goCopyAt b i.toNat s)
    pure (i + n, maxPayloadLen - n,
      { l with total := l.total - n.toNat, hdrLen := l.hdrLen - n.toNat, headIndex := l.headIndex + n.toNat })
  else pure (i, maxPayloadLen, l)

/-- muxer.go:165-174: the media. -/
def putMedia (media : Bytes) (l : Loop) (i maxPayloadLen : UInt8) : GoM Env Loop := do
  if maxPayloadLen > 0 then
    if l.dataIndex + maxPayloadLen.toNat > media.length then GoM.fail .other
    else
      let s ← GoM.lift (goSlice media l.dataIndex (l.dataIndex + maxPayloadLen.toNat : Nat))
      updPacket (fun b => goCopyAt b i.toNat s)
      pure { l with dataIndex := l.dataIndex + maxPayloadLen.toNat, total := l.total - maxPayloadLen.toNat }
  else pure l

/-- muxer.go:77-80: the payload unit start indicator. -/
def putStart (first : Bool) : GoM Env Unit := if first then updPacket (fun b => orAt b 1 0x40) else pure ()

/-- muxer.go:73-183: one iteration.  `copy(muxer.tsPacket[0:4], pes.TsHeader)` copies at most four bytes. -/
def muxBody (p : Packet) (isKeyFrame : Bool) (dts : Int) (pes : Pes) (l : Loop) : GoM Env Loop := do
  updPacket (fun b => goCopyAt b 0 (pes.tsHeader.take 4))
  putStart l.first
  let cc ← bumpCc p.type
  updPacket (fun b => orAt b 3 cc)
  let i ← putPcr dts (l.first && isKeyFrame)
  let (i, maxPayloadLen) ← putStuff l.total i
  let (i, maxPayloadLen, l) ← putHeader pes l i maxPayloadLen
  let l ← putMedia p.media l i maxPayloadLen
  let e ← GoM.get
  Env.write e.m.tsPacket
  pure { l with first := false }

/-- muxer.go:73-183: the loop. -/
def muxLoop (p : Packet) (isKeyFrame : Bool) (dts : Int) (pes : Pes) : Nat → Loop → GoM Env Unit
  | 0, _ => GoM.diverge
  | fuel + 1, l =>
    if l.total > 0 then do
      let l ← muxBody p isKeyFrame dts pes l
      muxLoop p isKeyFrame dts pes fuel l
    else pure ()

/-- muxer.go:42-186 `Mux`. -/
def mux (p : Packet) (dts pts : Int) : GoM Env Unit := do
  let (pid, isKeyFrame) ← (
    if p.type = PktVideo then do
      let vh ← GoM.lift p.asVideo
      pure (videoPID, vh.isKeyFrame)
    else if p.type = PktAudio then pure (audioPID, false)
    else GoM.fail .other : GoM Env (UInt16 × Bool))
  let (pesHeaderLen, pes) ← GoM.lift (Pes.new.generate p.type p.media.length pts dts)
  let pesTotalLen := p.media.length + pesHeaderLen
  let h ← GoM.lift (goSet pes.tsHeader 1 (pid >>> 8).toUInt8)
  let h ← GoM.lift (goSet h 2 pid.toUInt8)
  muxLoop p isKeyFrame dts { pes with tsHeader := h } (pesTotalLen + 1)
    { total := pesTotalLen, hdrLen := pesHeaderLen, headIndex := 0, dataIndex := 0, first := true }

/-- muxer.go:211-219 (and 247-255, 305-313): the CRC at position `i`. -/
def putCrc (b : Bytes) (i : Nat) (crc : UInt32) : Res Bytes := do
  let b ← goSet b i (crc >>> 24).toUInt8
  let b ← goSet b (i + 1 : Nat) (crc >>> 16).toUInt8
  let b ← goSet b (i + 2 : Nat) (crc >>> 8).toUInt8
  goSet b (i + 3 : Nat) crc.toUInt8

/-- muxer.go:221-223 (and 257-259, 315-317): `n` bytes 0xff from position `i`. -/
def fillFF (i : Nat) : Nat → Bytes → Res Bytes
  | 0, b => .ok b
  | n + 1, b => do
    let b ← goSet b i 0xff
    fillFF (i + 1) n b

/-- muxer.go:190-223: the contents of the buffer `old` afterwards. -/
def sdtBytes (desc : Bytes) (old : Bytes) : Res Bytes := do
  let b ← goCopyAt old 0 sdtTsHeader
  let i := sdtTsHeader.length
  let sectionLen := 17 + desc.length
  let h ← orAt sdtHeader 1 (UInt8.ofNat (sectionLen / 256) &&& 0x0F)
  let h ← goSet h 2 (UInt8.ofNat sectionLen)
  let h ← orAt h 14 (UInt8.ofNat ((sectionLen - 17) / 256) &&& 0x0F)
  let h ← goSet h 15 (UInt8.ofNat (sectionLen - 17))
  let b ← goCopyAt b i h
  let i := i + sdtHeader.length
  let b ← goCopyAt b i desc
  let i := i + desc.length
  let sec ← goSlice b sdtTsHeader.length i
  let crc ← generateCrc32 sec
  let b ← putCrc b i crc
  fillFF (i + 4) (tsPacketLen - (i + 4)) b

/-- muxer.go:189-226 `SDT`.  Simplification: if it panics the partly written buffer is not recorded (every
byte is overwritten by the next call). -/
def sdt (desc : Bytes) : GoM Muxer Bytes := do
  let m ← GoM.get
  let b ← GoM.lift (sdtBytes desc m.sdt)
  GoM.set { m with sdt := b }
  pure b

/-- muxer.go:229-262 `PAT`. -/
def pat : GoM Muxer Bytes := do
  let m ← GoM.get
  let cc := if m.patCc > 0xf then 0 else m.patCc
  let h ← GoM.lift (orAt patTsHeader 3 (cc &&& 0x0f))
  GoM.set { m with patCc := cc + 1 }
  let r : Res Bytes := do
    let b ← goCopyAt m.pat 0 h
    let b ← goCopyAt b patTsHeader.length patHeader
    let i := patTsHeader.length + patHeader.length
    let crc ← generateCrc32 patHeader
    let b ← putCrc b i crc
    fillFF (i + 4) (tsPacketLen - (i + 4)) b
  let b ← GoM.lift r
  GoM.modify (fun m => { m with pat := b })
  pure b

/-- muxer.go:271-282: the program information and the PMT header afterwards. -/
def pmtPrograms : List Int → Bytes → Bytes → Res (Bytes × Bytes)
  | [], h, info => .ok (h, info)
  | v :: mt, h, info =>
    if v = PktVideo then do
      let h ← goSet h 9 0x00
      pmtPrograms mt h (info ++ progAvc)
    else if v = PktAudio then do
      let h ← goSet h 9 0x01
      pmtPrograms mt h (info ++ progAac)
    else pmtPrograms mt h info

/-- muxer.go:265-320 `PMT`.  Simplification as for `sdt`. -/
def pmt (mediaType : List Int) : GoM Muxer Bytes := do
  let m ← GoM.get
  let (ph, info) ← GoM.lift (pmtPrograms mediaType pmtHeader [])
  let ph ← GoM.lift (goSet ph 2 (UInt8.ofNat (info.length + 9 + 4)))
  let cc := if m.pmtCc > 0xf then 0 else m.pmtCc
  let h ← GoM.lift (orAt pmtTsHeader 3 (cc &&& 0x0f))
  GoM.set { m with pmtCc := cc + 1 }
  let r : Res Bytes := do
    let b ← goCopyAt m.pmt 0 h
    let b ← goCopyAt b pmtTsHeader.length ph
    let i := pmtTsHeader.length + pmtHeader.length
    let b ← goCopyAt b i info
    let i := i + info.length
    let sec ← goSlice b pmtTsHeader.length i
    let crc ← generateCrc32 sec
    let b ← putCrc b i crc
    fillFF (i + 4) (tsPacketLen - (i + 4)) b
  let b ← GoM.lift r
  GoM.modify (fun m => { m with pmt := b })
  pure b

/-! ## container/ts/sync.go -/

/-- sync.go:6 `aacSL`. -/
def aacSL : Int := 1024
/-- sync.go:9 `avcHZ`. -/
def avcHZ : Int := 90

/-- sync.go:13-17 `sync`. -/
structure Sync where
  frameNum : Int := 0
  frameDts : Int := 0
  syncMs : Int
  deriving DecidableEq, Repr

/-- sync.go:20-27 `newSync`. -/
def Sync.new (ms : Int) : Res Sync := if ms ≤ 0 then .panic else .ok { syncMs := ms * avcHZ }

/-- sync.go:32-55 `syncAudioTs`: returns the new `*dts`.  Division by a zero sample rate panics.
Simplification: `int64` arithmetic is exact (see `C54` for the bounds that make this true). -/
def syncAudioTs (dts : Int) (sampleRate : Int) : GoM Sync Int := do
  let s ← GoM.get
  if sampleRate = 0 then GoM.panic
  else
    let tsIncrement := (avcHZ * 1000 * aacSL).tdiv sampleRate
    let pts := s.frameDts + s.frameNum * tsIncrement
    let gap := if pts ≥ dts then pts - dts else dts - pts
    if gap ≤ s.syncMs then
      GoM.set { s with frameNum := s.frameNum + 1 }
      pure pts
    else
      GoM.set { s with frameNum := 1, frameDts := dts }
      pure dts

end Verif.Ts
