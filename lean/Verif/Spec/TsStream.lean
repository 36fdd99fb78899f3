import Verif.Model.Flv
import Verif.Spec.TsMixerHistory
/-!
# A whole transport stream: what a receiver gets out of it, and what was put into it
-/
namespace Verif.Spec.Ts
open Verif Verif.Ts Verif.Spec.Es

/-- The packets of one PID cut into units: a unit begins with `payload_unit_start_indicator`.  First component: what
continues the unit before. -/
def cutUnits : List TsPacket → Bytes × List Bytes
  | [] => ([], [])
  | t :: ts =>
    if t.start then ([], (t.payload ++ (cutUnits ts).1) :: (cutUnits ts).2)
    else (t.payload ++ (cutUnits ts).1, (cutUnits ts).2)

/-- The units of a PID; `none` if the stream begins in the middle of a unit. -/
def units (pid : Nat) (ps : List TsPacket) : Option (List Bytes) :=
  match ps.filter (·.pid == pid) with
  | [] => some []
  | t :: ts => if t.start then some (cutUnits (t :: ts)).2 else none

/-- PES packets, all of them well formed. -/
def parsePesAll : List Bytes → Option (List Pes)
  | [] => some []
  | u :: us =>
    match parsePes u, parsePesAll us with
    | some p, some ps => some (p :: ps)
    | _, _ => none

/-- What a receiver gets on a PID. -/
def receive (pid : Nat) (out : Bytes) : Option (List Pes) :=
  match parseStream out with
  | none => none
  | some ps =>
    match units pid ps with
    | none => none
    | some us => parsePesAll us

/-- What a receiver learns from the tables of a stream: the stream types and PIDs of its program, found through the first
PAT and the first PMT on the PID named there. -/
def tune (out : Bytes) : Option (List (Nat × Nat)) :=
  match parseStream out with
  | none => none
  | some ps =>
    match ps.find? (·.pid == 0) with
    | none => none
    | some t =>
      match parseSection t.payload with
      | some ⟨0x00, _, body⟩ =>
        match parsePrograms body with
        | some [(_, pid)] =>
          match ps.find? (·.pid == pid) with
          | none => none
          | some t =>
            match parseSection t.payload with
            | some ⟨0x02, _, body⟩ => (parsePmt body).map (·.2)
            | _ => none
        | _ => none
      | _ => none

/-- A video frame that was sent: presentation and decoding time, access unit. -/
structure VideoUnit where
  pts : Nat
  dts : Nat
  data : Bytes
  deriving DecidableEq, Repr

/-- An AAC frame that was sent: its time in ms, the AAC configuration and the raw frame. -/
structure AudioUnit where
  ms : UInt32
  objectType : Nat
  rateIndex : Nat
  channels : Nat
  frame : Bytes
  deriving DecidableEq, Repr

/-- The ADTS header of an AAC frame. -/
def AudioUnit.adts (u : AudioUnit) : Adts :=
  { mpeg4 := true, layer := 0, crcAbsent := true, profile := u.objectType - 1, rateIndex := u.rateIndex, privateBit := 0
    channels := u.channels, frameLength := 7 + u.frame.length, blocks := 0 }

/-- `Live y x vs as`: from the mixer `y` to the mixer `x` the video frames `vs` and the audio frames `as` have been sent,
each as an FLV tag that went through `Demux`, `Update` and `Mux`, in any order and mixed with `SetTsHeader` calls and
any calls that write nothing (saving sequence headers and metadata, rejected packets). -/
inductive Live (y : Mixer) : Mixer → List VideoUnit → List AudioUnit → Prop
  | start : Live y y [] []
  | silent {x vs as} (o : MixOp) : Live y x vs as → (o.after x).ts = x.ts → Live y (o.after x) vs as
  | tables {x vs as} : Live y x vs as → x.setTsHeader.1 = .ok () → Live y x.setTsHeader.2 vs as
  /-- A video tag: frame type 1 or 2, codec 7, packet type 1, composition time, length-prefixed NAL units.  `hs` are the
  configuration records so far; `hlen` excludes the small key frames of C47 and C48. -/
  | video {x vs as} (hs : List (Bytes × Bytes × Bytes)) (p : Packet) (b0 b2 b3 b4 : UInt8) (nals : List Bytes) (a b : UInt32) :
      Live y x vs as → MixHist x hs → p.type = 0 → p.data = b0 :: 1 :: b2 :: b3 :: b4 :: avcc nals →
      (b0.toNat / 16 = 1 ∨ b0.toNat / 16 = 2) → b0.toNat % 16 = 7 → (∀ n ∈ nals, Supported n) → nals ≠ [] →
      (∀ n, nals.head? = some n → n.length ≠ 1) →
      (b0.toNat / 16 = 1 → 184 ≤ (if 90 * b.toNat % 2 ^ 32 = 0 then 14 else 19) +
        (accessUnit (annexB (hs.flatMap fun x => [x.1, x.2.1 ++ x.2.2])) nals).length) →
      Live y ((x.update (Flv.demux p).2 a b).2.mux (Flv.demux p).2).2.1
        (vs ++ [⟨90 * a.toNat % 2 ^ 32 + 90 * b.toNat % 2 ^ 32, 90 * a.toNat % 2 ^ 32,
          accessUnit (annexB (hs.flatMap fun x => [x.1, x.2.1 ++ x.2.2])) nals⟩]) as
  /-- An audio tag: sound format 10, packet type 1, raw AAC frame.  `o`, `i`, `c` is the last AAC configuration. -/
  | audio {x vs as} (o i c : Nat) (p : Packet) (b0 : UInt8) (frame : Bytes) (a b : UInt32) :
      Live y x vs as → MixConf x o i c → (1 ≤ o ∧ o ≤ 4) → c ≤ 7 → p.type = 1 → p.data = b0 :: 1 :: frame → b0.toNat / 16 = 10 →
      frame ≠ [] → frame.length ≤ 8184 →
      Live y ((x.update (Flv.demux p).2 a b).2.mux (Flv.demux p).2).2.1 vs (as ++ [⟨a, o, i, c, frame⟩])

/-- `Delivered out vs as`: `out` is a transport stream from which a receiver gets the video frames `vs` on PID 0x100 and
the audio frames `as` on PID 0x101, all of them, in order, and nothing else.  Video frames have the stamps given; AAC
frames have an ADTS header and a stamp within 10 ms of theirs. -/
structure Delivered (out : Bytes) (vs : List VideoUnit) (as : List AudioUnit) : Prop where
  stream : ∃ ps, parseStream out = some ps
  video : ∃ V, receive 0x100 out = some V ∧ V.map (fun p => (⟨p.pts, p.dts.getD p.pts, p.data⟩ : VideoUnit)) = vs ∧
    ∀ p ∈ V, p.streamId = 0xe0
  audio : ∃ A, receive 0x101 out = some A ∧ A.map (fun p => readAdts p.data) = as.map (fun u => some (u.adts, u.frame)) ∧
    (∀ p ∈ A, p.streamId = 0xc0 ∧ p.dts = none) ∧
    ∀ (i : Nat) p u, A[i]? = some p → as[i]? = some u → (p.pts : Int) - 90 * u.ms.toNat % 2 ^ 32 ≤ 900 ∧ 90 * u.ms.toNat % 2 ^ 32 - (p.pts : Int) ≤ 900

end Verif.Spec.Ts
