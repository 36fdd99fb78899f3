import Verif.Props.Flv
/-!
# C135: packets given to an FLV mixer
-/
namespace Verif.Props
open Verif Verif.Amf Verif.Flv Verif.Spec.Flv

/-- The packet after `mux`. -/
theorem mux_packet_after (pts : UInt32) (e : MuxEnv) (hg : Good e.m) :
    (mux pts e).2.p = match prep e.p with
      | .ok p' => p'
      | _ => e.p := by
  obtain ⟨h1, h2, h3, h4⟩ := mux_eq pts e hg
  cases hp : prep e.p with
  | ok p' => obtain ⟨m', _, _, h⟩ := h4 p' hp; rw [h]
  | err x => rw [h1 x hp]
  | panic => rw [h2 hp]
  | diverge => rw [h3 hp]

theorem prep_media (p : Packet) (ht : p.type ≠ 2) : (match prep p with | .ok p' => p' | _ => p) = p := by
  by_cases h : p.type = 0 ∨ p.type = 1
  · have : prep p = .ok p := by unfold prep; rw [if_pos h]
    simp only [this]
  · have : prep p = .err .other := by unfold prep; rw [if_neg h, if_neg ht]
    simp only [this]

/-- C135 (partial): whatever the outcome and the writer, a packet that is not script data is the same afterwards, so
any number of mixers can be given it.

Full claim: the same for script data. -/
theorem C135_media_partial (m : Mixer) (h : MixerReached m) (p : Packet) (pts : UInt32) (ht : p.type ≠ 2) :
    (m.mux p pts).2.2 = p ∧ (m.saveAVCHeader p).2.2 = p ∧ (m.saveAACHeader p).2.2 = p := by
  obtain ⟨t, hr⟩ := reached_remembers h
  refine ⟨?_, ?_, ?_⟩ <;>
    exact (mux_packet_after _ ⟨m.muxer, p, _⟩ hr.good).trans (prep_media p ht)

/-- C135 (partial): of script data nothing but the data changes, and what is left is the end of it. -/
theorem C135_script_partial (m : Mixer) (h : MixerReached m) (p : Packet) (pts : UInt32) :
    ∃ d, d <:+ p.data ∧ (m.mux p pts).2.2 = { p with data := d } := by
  obtain ⟨t, hr⟩ := reached_remembers h
  show ∃ d, d <:+ p.data ∧ (mux pts ⟨m.muxer, p, m.flv⟩).2.p = _
  rw [mux_packet_after pts ⟨m.muxer, p, m.flv⟩ hr.good]
  simp only
  cases hp : prep p with
  | ok p' =>
    obtain ⟨-, -, h3, h4⟩ := prep_ok p p' hp
    refine ⟨p'.data, ?_, h4⟩
    rcases h3 with h3 | ⟨-, n, h3⟩
    · rw [h3]; exact List.suffix_refl _
    · rw [h3]; exact List.drop_suffix _ _
  | _ => exact ⟨p.data, List.suffix_refl _, rfl⟩

/-- C135 (partial): script data that begins with another string than "@setDataFrame" is the same afterwards. -/
theorem C135_other_script_partial (m : Mixer) (h : MixerReached m) (p : Packet) (pts : UInt32) (x : Bytes)
    (hx : startsWithString (St.buffer []) p.data x) (hne : x ≠ setDataFrameChars) : (m.mux p pts).2.2 = p := by
  by_cases ht : p.type = 2
  · obtain ⟨t, hr⟩ := reached_remembers h
    refine (mux_packet_after pts ⟨m.muxer, p, m.flv⟩ hr.good).trans ?_
    have hp : prep p = .ok p := by
      unfold prep
      rw [if_neg (by omega), if_pos ht, show freshTables = St.buffer [] from rfl, C28_del_other (St.buffer []) p.data x hx hne]
    simp only [hp]
  · exact (C135_media_partial m h p pts ht).1

/-- The code violates C135 for every script packet with "@setDataFrame", whatever the writer does: the string is gone
afterwards, for everyone who holds the packet. -/
theorem C135_header_lost_refuted (m : Mixer) (h : MixerReached m) (p : Packet) (pts : UInt32) (d : Bytes)
    (ht : p.type = 2) (hd : p.data = metaHeader ++ d) : (m.mux p pts).2.2 = { p with data := d } ∧ { p with data := d } ≠ p := by
  obtain ⟨t, hr⟩ := reached_remembers h
  have hp : prep p = .ok { p with data := d } := by
    unfold prep
    rw [if_neg (by omega), if_pos ht, hd, C28_del_header]
  refine ⟨(mux_packet_after pts ⟨m.muxer, p, m.flv⟩ hr.good).trans (by simp only [hp]), ?_⟩
  intro he
  have := congrArg (fun q : Packet => q.data.length) he
  simp only [hd, List.length_append] at this
  have hl : metaHeader.length = 16 := rfl
  omega

/-- Because of that, two mixers that are given the same packet write different tags if the data has the header twice. -/
theorem C135_two_mixers_refuted (m₁ m₂ : Mixer) (h₁ : MixerReached m₁) (h₂ : MixerReached m₂) (w₁ : m₁.flv.Reliable)
    (w₂ : m₂.flv.Reliable) (p : Packet) (pts : UInt32) (d : Bytes) (ht : p.type = 2) (hd : p.data = metaHeader ++ (metaHeader ++ d))
    (hl : (metaHeader ++ d).length < 2 ^ 24) :
    ∃ m₁' m₂' p₁ p₂, m₁.mux p pts = (.ok (), m₁', p₁) ∧ m₂.mux p₁ pts = (.ok (), m₂', p₂) ∧
      m₁'.flv.out = m₁.flv.out ++ (TagRec.mk 18 pts.toNat (metaHeader ++ d)).bytes ∧
      m₂'.flv.out = m₂.flv.out ++ (TagRec.mk 18 pts.toNat d).bytes := by
  obtain ⟨m₁', e1, o1⟩ := C14_strip m₁ h₁ w₁ p pts _ ht hd hl
  obtain ⟨m₂', e2, o2⟩ := C14_strip m₂ h₂ w₂ { p with data := metaHeader ++ d } pts d ht rfl (by
    rw [List.length_append] at hl; omega)
  exact ⟨m₁', m₂', _, _, e1, e2, o1, o2⟩

example : ((Mixer.new Sink.mem).mux { type := 0, data := [0x17, 1, 0, 0, 0, 9], media := [9] } 40).2.2 =
    { type := 0, data := [0x17, 1, 0, 0, 0, 9], media := [9] } :=
  (C135_media_partial (Mixer.new Sink.mem) ⟨Sink.mem, [], by simp, rfl⟩ { type := 0, data := [0x17, 1, 0, 0, 0, 9], media := [9] } 40 (by decide)).1
example : (sampleMixer.mux { type := 2, data := sampleMeta } 0).2.2 = { type := 2, data := sampleMeta } :=
  C135_other_script_partial sampleMixer sampleMixer_reached { type := 2, data := sampleMeta } 0 [111, 110, 77, 101, 116, 97, 68, 97, 116, 97]
    ⟨(Amf0.decode { St.buffer [] with data := sampleMeta, eofOnEmpty := true, lim := id }).2, Prod.ext (by decide +kernel) rfl⟩ (by decide +kernel)
example : (sampleMixer.mux { type := 2, data := metaHeader ++ sampleMeta } 0).2.2 = { type := 2, data := sampleMeta } :=
  (C135_header_lost_refuted sampleMixer sampleMixer_reached { type := 2, data := metaHeader ++ sampleMeta } 0 sampleMeta rfl rfl).1
example : ∃ d, d <:+ metaHeader ++ sampleMeta ∧ (sampleMixer.mux { type := 2, data := metaHeader ++ sampleMeta } 0).2.2 = { type := 2, data := d } :=
  C135_script_partial sampleMixer sampleMixer_reached { type := 2, data := metaHeader ++ sampleMeta } 0
example : ∃ m₁' m₂' p₁ p₂, sampleMixer.mux { type := 2, data := metaHeader ++ (metaHeader ++ sampleMeta) } 0 = (.ok (), m₁', p₁) ∧
    (sampleMixer.setWriter Sink.mem).mux p₁ 0 = (.ok (), m₂', p₂) ∧
    m₁'.flv.out = sampleMixer.flv.out ++ (TagRec.mk 18 0 (metaHeader ++ sampleMeta)).bytes ∧
    m₂'.flv.out = [] ++ (TagRec.mk 18 0 sampleMeta).bytes :=
  C135_two_mixers_refuted sampleMixer (sampleMixer.setWriter Sink.mem) sampleMixer_reached (sampleMixer_reached.setWriter _) (fun _ => rfl)
    (fun _ => rfl) { type := 2, data := metaHeader ++ (metaHeader ++ sampleMeta) } 0 sampleMeta rfl rfl (by decide)

end Verif.Props
