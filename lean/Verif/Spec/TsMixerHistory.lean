import Verif.Model.TsMixer
import Verif.Spec.TsHistory
import Verif.Spec.ParserHistory
/-! # Mixers that a user can reach -/
namespace Verif.Spec.Ts
open Verif Verif.Ts Verif.Spec.Es

/-- A call of a mixer method. -/
inductive MixOp where
  | setWriter (w : Sink)
  | mux (p : Packet)
  | saveMetadata (md : List (Bytes × Amf.Val))
  | saveAVC (p : Packet)
  | saveAAC (p : Packet)
  | header
  | update (p : Packet) (pktTs avcTs : UInt32)

/-- The outcome of a call. -/
def MixOp.outcome (x : Mixer) : MixOp → Res Unit
  | .setWriter _ => .ok ()
  | .mux p => (x.mux p).1
  | .saveMetadata _ => .ok ()
  | .saveAVC p => (x.saveAVCHeader p).1
  | .saveAAC p => (x.saveAACHeader p).1
  | .header => x.setTsHeader.1
  | .update p a b => (x.update p a b).1

/-- The mixer after a call, whatever its outcome. -/
def MixOp.after (x : Mixer) : MixOp → Mixer
  | .setWriter w => x.setWriter w
  | .mux p => (x.mux p).2.1
  | .saveMetadata md => x.saveMetadata md
  | .saveAVC p => (x.saveAVCHeader p).2.1
  | .saveAAC p => (x.saveAACHeader p).2.1
  | .header => x.setTsHeader.2
  | .update p a b => (x.update p a b).2

/-- The packet whose media the call looks at. -/
def MixOp.packet : MixOp → Option Packet
  | .mux p | .saveAVC p | .saveAAC p => some p
  | _ => none

/-- A packet that its header calls an H.264 sequence header. -/
def avcConfig (p : Packet) : Prop := p.type = 0 ∧ ∃ v a, p.header = some ⟨some v, a⟩ ∧ v.isCodecAvc = true ∧ v.isSeqHdr = true

/-- A packet that its header calls an AAC sequence header. -/
def aacConfig (p : Packet) : Prop := p.type = 1 ∧ ∃ v a, p.header = some ⟨v, some a⟩ ∧ a.isSoundAAC = true ∧ a.aacType.toNat = 0

/-- `MixHist x hs`: the mixer `x` was made by `NewMixer` and has since been used for any calls with any outcome; the
H.264 configuration records among the packets were `hs` (SPS, PPS, bytes behind the PPS). -/
inductive MixHist : Mixer → List (Bytes × Bytes × Bytes) → Prop
  | new (w : Sink) : MixHist (Mixer.new w) []
  | record {x hs} (o : MixOp) (p : Packet) (sps pps ext : Bytes) : MixHist x hs → o.packet = some p → avcConfig p →
      Record p.media sps pps ext → MixHist (o.after x) (hs ++ [(sps, pps, ext)])
  | other {x hs} (o : MixOp) : MixHist x hs →
      (∀ p, o.packet = some p → avcConfig p → ¬ ∃ sps pps ext, Record p.media sps pps ext) → MixHist (o.after x) hs

/-- `MixReach x`: the mixer `x` can be reached. -/
def MixReach (x : Mixer) : Prop := ∃ hs, MixHist x hs

/-- `MixConf x o i c`: in the history of `x` the last AAC configuration had the object type `o`, the frequency index
`i` and the channel configuration `c`. -/
inductive MixConf : Mixer → Nat → Nat → Nat → Prop
  | config {x} (op : MixOp) (p : Packet) (o i c l : Nat) (extra : Bytes) : MixReach x → op.packet = some p → aacConfig p →
      p.media = audioConfig o i c l ++ extra → o < 32 → i < 13 → c < 16 → l < 8 → MixConf (op.after x) o i c
  | other {x o i c} (op : MixOp) : MixConf x o i c → (∀ p, op.packet = some p → ¬ aacConfig p) → MixConf (op.after x) o i c

/-- `Quiet x y`: `y` is `x` after any calls other than `SetWriter`, `SaveAVCHeader` and `SaveAACHeader`, none of which
panicked. -/
inductive Quiet (x : Mixer) : Mixer → Prop
  | refl : Quiet x x
  | mux {y} (p : Packet) : Quiet x y → (y.mux p).1 ≠ .panic → Quiet x (y.mux p).2.1
  | saveMetadata {y} (md : List (Bytes × Amf.Val)) : Quiet x y → Quiet x (y.saveMetadata md)
  | header {y} : Quiet x y → y.setTsHeader.1 ≠ .panic → Quiet x y.setTsHeader.2
  | update {y} (p : Packet) (a b : UInt32) : Quiet x y → (y.update p a b).1 ≠ .panic → Quiet x (y.update p a b).2

/-- The packet does not go out on the PID: video goes out on 0x100, audio on 0x101. -/
def Apart (pid : Nat) (p : Packet) : Prop := (pid = 0x100 → p.type ≠ 0) ∧ (pid = 0x101 → p.type ≠ 1)

/-- No packet of the stream has the PID. -/
def Unused (pid : Nat) (out : Bytes) : Prop := ∀ ps, parseStream out = some ps → ∀ t ∈ ps, t.pid ≠ pid

/-- Calls of any kind but `SetWriter` that do not panic, where a sequence header may be saved as long as its packet is for
another PID than `pid`, or nothing has been written on `pid` so far. -/
inductive QuietOn (pid : Nat) (x : Mixer) : Mixer → Prop
  | refl : QuietOn pid x x
  | quiet {y z} : QuietOn pid x y → Quiet y z → QuietOn pid x z
  | saveAVC {y} (p : Packet) : QuietOn pid x y → (y.saveAVCHeader p).1 ≠ .panic →
      Apart pid p ∨ Unused pid y.ts.out → QuietOn pid x (y.saveAVCHeader p).2.1
  | saveAAC {y} (p : Packet) : QuietOn pid x y → (y.saveAACHeader p).1 ≠ .panic →
      Apart pid p ∨ Unused pid y.ts.out → QuietOn pid x (y.saveAACHeader p).2.1

/-- What the mixer has been told to announce: `SaveAVCHeader` and `SaveAACHeader` calls in the history, whatever their
outcome. -/
inductive Announced : Mixer → Bool → Bool → Prop
  | new (w : Sink) : Announced (Mixer.new w) false false
  | avc {x v a} (p : Packet) : Announced x v a → Announced (x.saveAVCHeader p).2.1 true a
  | aac {x v a} (p : Packet) : Announced x v a → Announced (x.saveAACHeader p).2.1 v true
  | other {x v a} (o : MixOp) : Announced x v a → (∀ p, o ≠ .saveAVC p ∧ o ≠ .saveAAC p) → Announced (o.after x) v a

/-- `Carries out pid pes`: `out` is a transport stream with nothing but the PES packet `pes` on the PID `pid`. -/
def Carries (out : Bytes) (pid : Nat) (pes : Pes) : Prop :=
  ∃ ps, parseStream out = some ps ∧ (∀ t ∈ ps, t.pid = pid) ∧ (∀ i t, ps[i]? = some t → (t.start = true ↔ i = 0)) ∧
    (∀ t ∈ ps, ∀ a, t.adaptation = some a → (parseAdaptation a).isSome = true) ∧ parsePes (payload ps) = some pes

end Verif.Spec.Ts
