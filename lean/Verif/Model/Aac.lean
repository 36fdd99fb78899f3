import Verif.Model.H264
/-! # Model of packages `parser/aac` and `parser/mp3` -/
namespace Verif

namespace Aac
/-- container/flv/type.go:16 `AacSeqHdr`. -/
def AacSeqHdr : UInt8 := 0
/-- container/flv/type.go:18 `AacRaw`. -/
def AacRaw : UInt8 := 1

/-- parser/aac/type.go:11 `aacRates`. -/
def aacRates : List Int :=
  [96000, 88200, 64000, 48000, 44100, 32000, 24000, 22050, 16000, 12000, 11025, 8000, 7350]

/-- parser/aac/parser.go:12-16 `Parser` with the fields of `mpegCfgInfo` (parser/aac/type.go:18-27) in
use.  Simplification: `adtsHeader` is a scratch slice, every byte of which is set before each use. -/
structure Parser where
  gotSpecific : Bool
  objectType : UInt8
  sampleRateIndex : UInt8
  channel : UInt8
  deriving DecidableEq, Repr

/-- parser/aac/parser.go:19-25 `NewParser`. -/
def Parser.new : Parser := { gotSpecific := false, objectType := 0, sampleRateIndex := 0, channel := 0 }

/-- parser/aac/parser.go:45-53 `SampleRate`. -/
def Parser.sampleRate (p : Parser) : Res Int :=
  if p.sampleRateIndex.toNat < aacRates.length then goIndex aacRates p.sampleRateIndex.toNat
  else .ok 44100

/-- parser/aac/parser.go:57-74 `specificInfo`. -/
def specificInfo (src : Bytes) : GoM (Dev Parser) Unit := fun s =>
  if src.length < 2 then (.err .other, s)
  else
    match goIndex src 0, goIndex src 1 with
    | .ok b0, .ok b1 =>
      let p : Parser :=
        { gotSpecific := true
          objectType := (b0 >>> 3) &&& 0xff
          sampleRateIndex := ((b0 &&& 0x07) <<< 1) ||| b1 >>> 7
          channel := (b1 >>> 3) &&& 0x0f }
      if p.sampleRateIndex = 0xf then (.err .other, { s with p := p })
      else (.ok (), { s with p := p })
    | _, _ => (.panic, s)

/-- parser/aac/parser.go:82-126: the seven bytes of the ADTS header. -/
def adtsHeader (p : Parser) (srcLen : Nat) : Bytes :=
  let aacFrameLen : UInt16 := UInt16.ofNat srcLen
  let frameLen : UInt16 := (aacFrameLen + 7) &&& 0x1fff
  [ 0xff, 0xf1,
    ((p.objectType - 1) <<< 6) ||| (p.sampleRateIndex <<< 2) ||| (p.channel >>> 2),
    ((p.channel &&& 0x3) <<< 6) ||| (frameLen >>> 11).toUInt8,
    ((frameLen &&& 0x7ff) >>> 3).toUInt8,
    ((frameLen &&& 0x7) <<< 5).toUInt8 ||| 0x1f,
    0xfc ]

/-- parser/aac/parser.go:77-141 `addADTSToFrame`. -/
def addADTSToFrame (p : Parser) (src : Bytes) : GoM Sink Unit :=
  if src.length = 0 ∨ p.gotSpecific = false then GoM.fail .other
  else do
    Sink.write (adtsHeader p src.length)
    Sink.write src

/-- parser/aac/parser.go:28-42 `Parse`. -/
def parse (b : Bytes) (types : UInt8) : GoM (Dev Parser) Unit := fun s =>
  if b.length = 0 then (.err .other, s)
  else if types = AacSeqHdr then specificInfo b s
  else if types = AacRaw then Dev.onW (addADTSToFrame s.p b) s
  else (.err .other, s)
end Aac

namespace Mp3
/-- parser/mp3/parser.go:24 `mp3Rates`. -/
def mp3Rates : List Int := [44100, 48000, 32000]

/-- parser/mp3/parser.go:8-10 `Parser`. -/
structure Parser where
  samplingFrequency : Int
  deriving DecidableEq, Repr

/-- parser/mp3/parser.go:13-17 `NewParser`. -/
def Parser.new : Parser := { samplingFrequency := 44100 }

/-- parser/mp3/parser.go:27-40 `Parse`. -/
def parse (src : Bytes) : GoM Parser Unit := fun p =>
  if src.length < 3 then (.err .other, p)
  else
    match goIndex src 2 with
    | .ok b =>
      let index := (b >>> 1) &&& 0x3
      if index.toNat < mp3Rates.length then
        match goIndex mp3Rates index.toNat with
        | .ok r => (.ok (), { samplingFrequency := r })
        | _ => (.panic, p)
      else (.err .other, p)
    | _ => (.panic, p)

/-- parser/mp3/parser.go:43-45 `SampleRate`. -/
def Parser.sampleRate (p : Parser) : Int := p.samplingFrequency
end Mp3
end Verif
