import Verif.Props.TsMixer
import Verif.Props.Ts
import Verif.Props.Parser
/-!
# Properties C144 and C145: what the tables of a mixer announce, and mixers with a failing writer

`Accepted` is the history of a mixer as the caller knows it: the sequence headers for which `SaveAVCHeader` or
`SaveAACHeader` returned no error.
-/
namespace Verif.Props
open Verif Verif.Ts Verif.Spec.Ts

/-- `Accepted x v a`: `SaveAVCHeader` has succeeded on `x` iff `v`, `SaveAACHeader` has succeeded iff `a`. -/
inductive Accepted : Mixer → Bool → Bool → Prop
  | new (w : Sink) : Accepted (Mixer.new w) false false
  | avc {x v a} (p : Packet) : Accepted x v a → (x.saveAVCHeader p).1 = .ok () → Accepted (x.saveAVCHeader p).2.1 true a
  | aac {x v a} (p : Packet) : Accepted x v a → (x.saveAACHeader p).1 = .ok () → Accepted (x.saveAACHeader p).2.1 v true
  | avcFailed {x v a} (p : Packet) : Accepted x v a → (x.saveAVCHeader p).1 ≠ .ok () → Accepted (x.saveAVCHeader p).2.1 v a
  | aacFailed {x v a} (p : Packet) : Accepted x v a → (x.saveAACHeader p).1 ≠ .ok () → Accepted (x.saveAACHeader p).2.1 v a
  | other {x v a} (o : MixOp) : Accepted x v a → (∀ p, o ≠ .saveAVC p ∧ o ≠ .saveAAC p) → Accepted (o.after x) v a

/-- The streams as a PMT lists them: H.264 on PID 0x100, AAC in ADTS on PID 0x101. -/
def listed (v a : Bool) : List (Nat × Nat) := (if v then [(0x1b, 0x100)] else []) ++ (if a then [(0x0f, 0x101)] else [])

/-- What is announced is at least what was accepted, and more only if some header was rejected. -/
theorem accepted_announced {x : Mixer} {v a : Bool} (h : Accepted x v a) :
    MixReach x ∧ ∃ v' a', Announced x v' a' ∧ (v = true → v' = true) ∧ (a = true → a' = true) := by
  induction h with
  | new w => exact ⟨⟨_, .new w⟩, _, _, .new w, id, id⟩
  | avc p _ _ ih =>
    obtain ⟨hr, v', a', h, -, h2⟩ := ih
    exact ⟨MixReach.op hr (.saveAVC p), _, _, .avc p h, fun _ => rfl, h2⟩
  | aac p _ _ ih =>
    obtain ⟨hr, v', a', h, h1, -⟩ := ih
    exact ⟨MixReach.op hr (.saveAAC p), _, _, .aac p h, h1, fun _ => rfl⟩
  | avcFailed p _ _ ih =>
    obtain ⟨hr, v', a', h, -, h2⟩ := ih
    exact ⟨MixReach.op hr (.saveAVC p), _, _, .avc p h, fun _ => rfl, h2⟩
  | aacFailed p _ _ ih =>
    obtain ⟨hr, v', a', h, h1, -⟩ := ih
    exact ⟨MixReach.op hr (.saveAAC p), _, _, .aac p h, h1, fun _ => rfl⟩
  | other o _ hn ih =>
    obtain ⟨hr, v', a', h, h1, h2⟩ := ih
    exact ⟨MixReach.op hr o, _, _, .other o h hn, h1, h2⟩

/-- `Clean x v a`: the same, and no sequence header was ever rejected. -/
inductive Clean : Mixer → Bool → Bool → Prop
  | new (w : Sink) : Clean (Mixer.new w) false false
  | avc {x v a} (p : Packet) : Clean x v a → (x.saveAVCHeader p).1 = .ok () → Clean (x.saveAVCHeader p).2.1 true a
  | aac {x v a} (p : Packet) : Clean x v a → (x.saveAACHeader p).1 = .ok () → Clean (x.saveAACHeader p).2.1 v true
  | other {x v a} (o : MixOp) : Clean x v a → (∀ p, o ≠ .saveAVC p ∧ o ≠ .saveAAC p) → Clean (o.after x) v a

theorem Clean.accepted {x : Mixer} {v a : Bool} (h : Clean x v a) : Accepted x v a ∧ Announced x v a := by
  induction h with
  | new w => exact ⟨.new w, .new w⟩
  | avc p _ h ih => exact ⟨.avc p ih.1 h, .avc p ih.2⟩
  | aac p _ h ih => exact ⟨.aac p ih.1 h, .aac p ih.2⟩
  | other o _ h ih => exact ⟨.other o ih.1 h, .other o ih.2 h⟩

/-- C144 (partial): if no sequence header was rejected, the PMT of every successful `SetTsHeader` lists exactly the streams whose
headers were accepted; and in any case it lists those.

Full claim: the first part also after rejected headers (`C144_rejected_refuted`). -/
theorem C144_tables_partial {x : Mixer} {v a : Bool} (hw : x.ts.Reliable) (hok : x.setTsHeader.1 = .ok ()) :
    (Clean x v a → ∃ s p q cc pcr, x.setTsHeader.2.ts.out = x.ts.out ++ s ++ p ++ q ∧ parsePmtPacket q = some (cc, 1, pcr, listed v a)) ∧
    (Accepted x v a → ∃ s p q cc pcr st, x.setTsHeader.2.ts.out = x.ts.out ++ s ++ p ++ q ∧ parsePmtPacket q = some (cc, 1, pcr, st) ∧
      ∀ e ∈ listed v a, e ∈ st) := by
  constructor
  · intro h
    obtain ⟨h1, h2⟩ := h.accepted
    obtain ⟨s, p, q, cc, e, hp⟩ := C46_pmt (accepted_announced h1).1 h2 hw hok
    exact ⟨s, p, q, cc, _, e, hp⟩
  · intro h
    obtain ⟨hr, v', a', h1, hv, ha⟩ := accepted_announced h
    obtain ⟨s, p, q, cc, e, hp⟩ := C46_pmt hr h1 hw hok
    refine ⟨s, p, q, cc, _, _, e, hp, ?_⟩
    cases v <;> cases a <;> simp_all [listed, announcedStreams]

/-- C144 fails for every packet that `SaveAVCHeader` or `SaveAACHeader` rejects, whatever the mixer was used for before: all the same
the PMT lists a stream of that kind, also if no header of the kind was ever accepted. -/
theorem C144_rejected_refuted {x : Mixer} {v a : Bool} (h : Accepted x v a) (hw : x.ts.Reliable) (p : Packet) :
    (v = false → (x.saveAVCHeader p).1 ≠ .ok () → ∀ y, y = (x.saveAVCHeader p).2.1 → y.setTsHeader.1 = .ok () →
      Accepted y false a ∧ ∃ s p q cc pcr st, y.setTsHeader.2.ts.out = x.ts.out ++ s ++ p ++ q ∧
        parsePmtPacket q = some (cc, 1, pcr, st) ∧ (0x1b, 0x100) ∈ st) ∧
    (a = false → (x.saveAACHeader p).1 ≠ .ok () → ∀ y, y = (x.saveAACHeader p).2.1 → y.setTsHeader.1 = .ok () →
      Accepted y v false ∧ ∃ s p q cc pcr st, y.setTsHeader.2.ts.out = x.ts.out ++ s ++ p ++ q ∧
        parsePmtPacket q = some (cc, 1, pcr, st) ∧ (0x0f, 0x101) ∈ st) := by
  obtain ⟨hr, v', a', h1, -, -⟩ := accepted_announced h
  constructor
  · rintro rfl hf y rfl hok
    have ht := (saveHeader_parts { x with types := x.types.isVideo } p).2.2.2.2.2.2.1
    obtain ⟨s, b, q, cc, e, hp⟩ := C46_pmt (MixReach.op hr (.saveAVC p)) (.avc p h1) (show (x.saveAVCHeader p).2.1.ts.Reliable by
      rw [show (x.saveAVCHeader p).2.1.ts = x.ts from ht]; exact hw) hok
    refine ⟨.avcFailed p h hf, s, b, q, cc, _, _, ?_, hp, by simp [announcedStreams]⟩
    rw [← show (x.saveAVCHeader p).2.1.ts = x.ts from ht]
    exact e
  · rintro rfl hf y rfl hok
    have ht := (saveHeader_parts { x with types := x.types.isAudio } p).2.2.2.2.2.2.1
    obtain ⟨s, b, q, cc, e, hp⟩ := C46_pmt (MixReach.op hr (.saveAAC p)) (.aac p h1) (show (x.saveAACHeader p).2.1.ts.Reliable by
      rw [show (x.saveAACHeader p).2.1.ts = x.ts from ht]; exact hw) hok
    refine ⟨.aacFailed p h hf, s, b, q, cc, _, _, ?_, hp, by simp [announcedStreams]⟩
    rw [← show (x.saveAACHeader p).2.1.ts = x.ts from ht]
    exact e

/-- A sequence header that is cut off. -/
def cutCfg : Packet := { avcCfg with media := [1, 100, 0] }

example : Clean mixer2 true true ∧ mixer2.setTsHeader.1 = .ok () :=
  ⟨.aac aacCfg (.avc avcCfg (.new Sink.mem) (by decide +kernel)) (by decide +kernel), by decide +kernel⟩

/-- A mixer that has accepted an AAC header announces video after it has rejected an H.264 header. -/
example : ∃ y s p q cc pcr st, y = (((Mixer.new Sink.mem).saveAACHeader aacCfg).2.1.saveAVCHeader cutCfg).2.1 ∧ Accepted y false true ∧
    y.setTsHeader.2.ts.out = s ++ p ++ q ∧ parsePmtPacket q = some (cc, 1, pcr, st) ∧ (0x1b, 0x100) ∈ st := by
  have hok : (((Mixer.new Sink.mem).saveAACHeader aacCfg).2.1.saveAVCHeader cutCfg).2.1.setTsHeader.1 = .ok () := by decide +kernel
  have hno : (((Mixer.new Sink.mem).saveAACHeader aacCfg).2.1.saveAVCHeader cutCfg).1 ≠ .ok () := by decide +kernel
  have e' : ∀ (x : Mixer) (p : Packet), (x.saveAACHeader p).2.1.ts = x.ts := fun x p => (saveHeader_parts { x with types := x.types.isAudio } p).2.2.2.2.2.2.1
  have ht := e' (Mixer.new Sink.mem) aacCfg
  obtain ⟨h, s, p, q, cc, pcr, st, e, hp⟩ := (C144_rejected_refuted (.aac aacCfg (.new Sink.mem) (by decide +kernel))
    (by rw [ht]; exact fun _ => rfl) cutCfg).1 rfl hno _ rfl hok
  rw [ht] at e
  exact ⟨_, s, p, q, cc, pcr, st, rfl, h, e, hp⟩

/-! ## C145 -/

/-- `Reports f x`: whatever the writer of the mixer does, `f` returns its error exactly if a `Write` failed, and the writer then
has accepted a prefix of what one that works would have got; otherwise the writer makes no difference. -/
def Reports (f : Mixer → Res Unit × Mixer) (x : Mixer) : Prop :=
  ∀ w : Sink, ∃ pre suf, (f (x.setWriter w)).2.ts.out = w.out ++ pre ∧ (f (x.setWriter Sink.mem)).2.ts.out = pre ++ suf ∧
    ((f (x.setWriter w)).1 = .err .writer ↔ ∃ k, w.calls ≤ k ∧ k < (f (x.setWriter w)).2.ts.calls ∧ w.plan k ≠ none) ∧
    ((f (x.setWriter w)).1 = .err .writer ∨ suf = [] ∧ (f (x.setWriter w)).1 = (f (x.setWriter Sink.mem)).1)

/-- C145: `Mux` of a mixer, with whatever packet. -/
theorem C145_mixer_mux {x : Mixer} (hx : MixReach x) (p : Packet) : Reports (fun y => ((y.mux p).1, (y.mux p).2.1)) x := by
  intro w
  have hm : Reach x.muxer := (MixHist.inv hx.choose_spec).muxer
  by_cases h : (Parser.parse p ⟨x.parser, Sink.mem⟩).1 = .ok ()
  · simp only [Mixer.mux_ok (x.setWriter w) p h _ rfl, Mixer.mux_ok (x.setWriter Sink.mem) p h _ rfl]
    exact C58_ts_writer hm _ _ _ w
  · simp only [Mixer.mux_rejected (x.setWriter w) p h, Mixer.mux_rejected (x.setWriter Sink.mem) p h]
    refine ⟨[], [], by simp [Mixer.setWriter], rfl, ?_, .inr ⟨rfl, rfl⟩⟩
    constructor
    · intro hc
      obtain ⟨k, -, -, hk⟩ := (C95_failing_writer p x.parser Sink.mem _ rfl _ rfl).2.1.1 hc
      exact absurd rfl hk
    · rintro ⟨k, h1, h2, -⟩
      exact absurd h2 (by simp only [Mixer.setWriter]; omega)

/-- C145: `SetTsHeader`; this is also true when it panics. -/
theorem C145_mixer_header {x : Mixer} (hx : MixReach x) : Reports Mixer.setTsHeader x := by
  intro w
  obtain ⟨i, j, hh⟩ := (MixHist.inv hx.choose_spec).muxer
  have hg := Hist.good hh
  by_cases hd : x.metadata.length ≤ 163
  · obtain ⟨m', h1, -, -⟩ := tables_ok hg x.metadata hd x.types
    have e : ∀ w t, writeTables t w = runChunks [t.1, t.2.1, t.2.2] w := by
      intro w t
      simp only [writeTables, runChunks, GoM.bind_apply]
      rcases Sink.write t.1 w with ⟨r1, w1⟩
      cases r1 <;> try rfl
      rcases h2 : Sink.write t.2.1 w1 with ⟨r2, w2⟩
      cases r2 <;> simp only [h2]
      rcases h3 : Sink.write t.2.2 w2 with ⟨r3, w3⟩
      cases r3 <;> simp only [h3] <;> rfl
    have hs : ∀ w, (x.setWriter w).setTsHeader = ((runChunks [tabPacket 0x40 0x11 0 (sdtSec x.metadata),
        tabPacket 0x40 0x00 (tabCc x.muxer.patCc) patHeader, tabPacket 0x50 0x01 (tabCc x.muxer.pmtCc) (pmtSec x.types.toSlice)] w).1,
        { x with muxer := m', ts := (runChunks [tabPacket 0x40 0x11 0 (sdtSec x.metadata),
        tabPacket 0x40 0x00 (tabCc x.muxer.patCc) patHeader, tabPacket 0x50 0x01 (tabCc x.muxer.pmtCc) (pmtSec x.types.toSlice)] w).2 }) := by
      intro w
      unfold Mixer.setTsHeader
      rw [show tables (x.setWriter w).metadata (x.setWriter w).types.toSlice (x.setWriter w).muxer = _ from h1]
      simp only
      rw [e]
      rfl
    rw [hs, hs]
    generalize [tabPacket 0x40 0x11 0 (sdtSec x.metadata), tabPacket 0x40 0x00 (tabCc x.muxer.patCc) patHeader,
      tabPacket 0x50 0x01 (tabCc x.muxer.pmtCc) (pmtSec x.types.toSlice)] = cs
    obtain ⟨-, pre, suf, h3, h4, h5⟩ := runChunks_any cs w
    obtain ⟨-, pre', suf', h3', h4', h5'⟩ := runChunks_any cs Sink.mem
    have hmem : (runChunks cs Sink.mem).1 = .ok () ∧ suf' = [] := by
      rcases h5' with h | h
      · exact h
      · obtain ⟨k, -, -, hk⟩ := (runChunks_err_iff cs Sink.mem).1 h
        exact absurd rfl hk
    refine ⟨pre, suf, h4, ?_, runChunks_err_iff cs w, ?_⟩
    · simp only
      rw [h4', ← h3, h3', hmem.2]
      simp [Sink.mem]
    · rcases h5 with h | h
      · exact .inr ⟨h.2, h.1.trans hmem.1.symm⟩
      · exact .inl h
  · have hp : ∀ w, (x.setWriter w).setTsHeader = (.panic, x.setWriter w) := fun w => header_panic (x := x.setWriter w) hg (by
      show 163 < x.metadata.length; omega)
    rw [hp, hp]
    refine ⟨[], [], by simp [Mixer.setWriter], rfl, ⟨by simp, ?_⟩, .inr ⟨rfl, rfl⟩⟩
    rintro ⟨k, h1, h2, -⟩
    exact absurd h2 (by simp only [Mixer.setWriter]; omega)

/-- A writer that takes the SDT and ten bytes of the PAT. -/
example : (mixer2.setWriter ⟨[], 0, fun k => if k = 1 then some 10 else none⟩).setTsHeader.1 = .err .writer ∧
    (mixer2.setWriter ⟨[], 0, fun k => if k = 1 then some 10 else none⟩).setTsHeader.2.ts.out.length = 198 := by decide +kernel

end Verif.Props
