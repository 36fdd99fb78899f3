import Verif.Spec.Flv
/-!
# Specification of the elementary stream formats

H.264 in AVCC form (ISO/IEC 14496-15: every NAL unit behind its 4-byte length), H.264 in Annex-B form
(every NAL unit behind a start code), the AVC decoder configuration record, ADTS (ISO/IEC 14496-3) and
the MPEG audio frame header.
-/
namespace Verif.Spec.Es
open Verif

/-! ## H.264 -/

/-- `nal_unit_type`: the low five bits of the first byte. -/
def unitType : Bytes → Nat
  | [] => 0
  | b :: _ => b.toNat % 32

/-- A NAL unit the converter is meant to handle: slice, IDR, SEI, SPS, PPS or delimiter. -/
def Supported (n : Bytes) : Prop :=
  n ≠ [] ∧ n.length < 2 ^ 32 ∧ unitType n ∈ [1, 5, 6, 7, 8, 9]

def isIdr (n : Bytes) : Bool := unitType n == 5
def isParam (n : Bytes) : Bool := unitType n == 7 || unitType n == 8
def isPicture (n : Bytes) : Bool := unitType n == 1 || unitType n == 5 || unitType n == 6

/-- AVCC: each unit behind its length. -/
def avcc (nals : List Bytes) : Bytes := nals.flatMap fun n => Spec.Flv.beN 4 n.length ++ n

/-- Annex-B: each unit behind a start code. -/
def annexB (nals : List Bytes) : Bytes := nals.flatMap fun n => [0, 0, 0, 1] ++ n

/-- Parameter sets for the first IDR unit: those of the packet that precede it, else the saved ones. -/
def params (saved : Bytes) (before : List Bytes) : Bytes :=
  if (before.filter isParam).isEmpty then saved else annexB (before.filter isParam)

/-- The Annex-B access unit for a packet of NAL units: delimiter, pictures in order, parameter sets just
before the first IDR unit. -/
def accessUnit (saved : Bytes) (nals : List Bytes) : Bytes :=
  let before := nals.takeWhile (fun n => !isIdr n)
  let rest := nals.dropWhile (fun n => !isIdr n)
  [0, 0, 0, 1, 9, 0xf0] ++ annexB (before.filter isPicture) ++
    (if rest.isEmpty then [] else params saved before ++ annexB (rest.filter isPicture))

/-- AVC decoder configuration record with one SPS and one PPS; `ext` are the bytes the standard allows
behind the PPS (chroma format, bit depths and SPS extensions of the High profiles). -/
def avcRecord (version profile compat level lengthSize numSps : UInt8) (sps : Bytes) (numPps : UInt8)
    (pps ext : Bytes) : Bytes :=
  [version, profile, compat, level, lengthSize, numSps] ++ Spec.Flv.beN 2 sps.length ++ sps ++
    [numPps] ++ Spec.Flv.beN 2 pps.length ++ pps ++ ext

/-- `src` is a configuration record with the given parameter sets. -/
def Record (src sps pps ext : Bytes) : Prop :=
  sps ≠ [] ∧ sps.length < 65536 ∧ pps ≠ [] ∧ pps.length < 65536 ∧
    ∃ v pr co le ls ns np, src = avcRecord v pr co le ls ns sps np pps ext

/-! ## ADTS -/

structure Adts where
  mpeg4 : Bool
  layer : Nat
  crcAbsent : Bool
  profile : Nat
  rateIndex : Nat
  privateBit : Nat
  channels : Nat
  frameLength : Nat
  blocks : Nat
  deriving DecidableEq, Repr

/-- Bits `[lo, lo+len)` of a byte string, most significant first. -/
def bitsAt (b : Bytes) (lo len : Nat) : Nat :=
  (Spec.Flv.nat b / 2 ^ (8 * b.length - lo - len)) % 2 ^ len

/-- The seven byte ADTS header: 12 bits syncword, ID, 2 bits layer, protection_absent, 2 bits profile,
4 bits sampling_frequency_index, private_bit, 3 bits channel_configuration, original, home, 2 copyright
bits, 13 bits frame length, 11 bits buffer fullness, 2 bits number of raw data blocks. -/
def readAdts (b : Bytes) : Option (Adts × Bytes) :=
  if b.length < 7 then none
  else
    let h := b.take 7
    if bitsAt h 0 12 = 0xfff then
      some ({ mpeg4 := bitsAt h 12 1 == 0, layer := bitsAt h 13 2, crcAbsent := bitsAt h 15 1 == 1
              profile := bitsAt h 16 2, rateIndex := bitsAt h 18 4, privateBit := bitsAt h 22 1
              channels := bitsAt h 23 3, frameLength := bitsAt h 30 13, blocks := bitsAt h 54 2 },
        b.drop 7)
    else none

/-- AudioSpecificConfig: 5 bits object type, 4 bits frequency index, 4 bits channel configuration,
3 further bits. -/
def audioConfig (objectType rateIndex channels low : Nat) : Bytes :=
  Spec.Flv.beN 2 (objectType * 2 ^ 11 + rateIndex * 2 ^ 7 + channels * 2 ^ 3 + low)

/-- Sampling frequencies of ISO/IEC 14496-3 table 1.18. -/
def aacRate : Nat → Option Int
  | 0 => some 96000
  | 1 => some 88200
  | 2 => some 64000
  | 3 => some 48000
  | 4 => some 44100
  | 5 => some 32000
  | 6 => some 24000
  | 7 => some 22050
  | 8 => some 16000
  | 9 => some 12000
  | 10 => some 11025
  | 11 => some 8000
  | 12 => some 7350
  | _ => none

/-! ## MPEG-1 audio -/

/-- `sampling_frequency` of an MPEG-1 audio frame header: bits 20 and 21 of the header. -/
def mp3Rate (hdr : Bytes) : Option Int :=
  match bitsAt (hdr.take 4) 20 2 with
  | 0 => some 44100
  | 1 => some 48000
  | 2 => some 32000
  | _ => none

end Verif.Spec.Es
