import Verif.Spec.FlvCopy
import Verif.Props.FlvSegments
/-!
# Property C171: the tags of an FLV file can be muxed again
-/
namespace Verif.Props
open Verif Verif.Amf Verif.Flv Verif.Spec.Flv

/-- A reached mixer on which a call was made is reached. -/
theorem MixerReached.call {m : Flv.Mixer} (h : MixerReached m) (o : Op) (ho : o.Small mdBytes) : MixerReached (Spec.Flv.call o m).2.1 := by
  obtain ⟨w0, ops, hs, rfl⟩ := h
  refine ⟨w0, ops ++ [o], ?_, ?_⟩
  · intro op h
    rcases List.mem_append.mp h with h | h
    · exact hs op h
    · rw [List.mem_singleton.mp h]; exact ho
  · rw [run_append]; rfl

theorem mux_keeps_reliable (m : Flv.Mixer) (hw : m.flv.Reliable) (p : Packet) (pts : UInt32) : (m.mux p pts).2.1.flv.Reliable := by
  obtain ⟨r, m', o, h⟩ := blindTo_mux pts (m.muxer, p)
  obtain ⟨w', e, h1, -⟩ := h m.flv hw
  have e' : Flv.mux pts { m := m.muxer, p := p, w := m.flv } = _ := e
  rw [mixer_mux_eq, e']
  exact h1

/-- C171 (partial): whatever was done with the mixer before, every tag is accepted, the packets stay as they are and what is written are
the same tags, with all their bytes.  Missing: script data whose first value is no string or is "@setDataFrame", see below. -/
theorem C171_copy_partial (x : Flv.Mixer) (hx : MixerReached x) (hw : x.flv.Reliable) (ts : List TagRec) (hf : ∀ t ∈ ts, t.Fits)
    (ht : ∀ t ∈ ts, t.type = 9 ∨ t.type = 8 ∨
      t.type = 18 ∧ ∃ s, startsWithString (St.buffer []) t.payload s ∧ s ≠ setDataFrameChars) :
    (Spec.Flv.inTurn x (again ts)).1 = ts.map (fun t => (.ok (), t.packet)) ∧
    (Spec.Flv.inTurn x (again ts)).2.flv.out = x.flv.out ++ ts.flatMap TagRec.bytes := by
  induction ts generalizing x with
  | nil => simp [again, Spec.Flv.inTurn]
  | cons t ts ih =>
    have hft := hf t (by simp)
    have hu : (UInt32.ofNat t.time).toNat = t.time := by
      rw [UInt32.toNat_ofNat']; exact Nat.mod_eq_of_lt hft.2.1
    have key : ∃ m', x.mux t.packet (UInt32.ofNat t.time) = (.ok (), m', t.packet) ∧ m'.flv.out = x.flv.out ++ t.bytes := by
      rcases ht t (by simp) with h | h | ⟨h, s, h1, h2⟩
      · obtain ⟨m', e, o⟩ := C11_flv_tag x hx hw t.packet (UInt32.ofNat t.time) hft.2.2 (.inl (by simp [TagRec.packet, h]))
        refine ⟨m', e, ?_⟩
        rw [o, hu]
        have : TagRec.mk (if t.packet.type = 0 then 9 else 8) t.time t.packet.data = t := by cases t; simp_all [TagRec.packet]
        rw [this]
      · obtain ⟨m', e, o⟩ := C11_flv_tag x hx hw t.packet (UInt32.ofNat t.time) hft.2.2 (.inr (by simp [TagRec.packet, h]))
        refine ⟨m', e, ?_⟩
        rw [o, hu]
        have : TagRec.mk (if t.packet.type = 0 then 9 else 8) t.time t.packet.data = t := by cases t; simp_all [TagRec.packet]
        rw [this]
      · obtain ⟨m', e, o⟩ := C14_keep x hx hw t.packet (UInt32.ofNat t.time) s (by simp [TagRec.packet, h]) h1 h2 hft.2.2
        refine ⟨m', e, ?_⟩
        rw [o, hu, ← h]; rfl
    obtain ⟨m', e, o⟩ := key
    have hc : call (.mux t.packet (UInt32.ofNat t.time)) x = (.ok (), m', t.packet) := e
    have hr : MixerReached m' := by
      have := hx.call (.mux t.packet (UInt32.ofNat t.time)) hft.2.2
      rwa [hc] at this
    have hl : m'.flv.Reliable := by
      have := mux_keeps_reliable x hw t.packet (UInt32.ofNat t.time)
      rwa [e] at this
    have hi := ih m' hr hl (fun t h => hf t (by simp [h])) (fun t h => ht t (by simp [h]))
    simp only [again, List.map_cons, Spec.Flv.inTurn, hc] at hi ⊢
    rw [hi.1, hi.2, o]
    simp

theorem startsWith_a : startsWithString (St.buffer []) [2, 0, 1, 97] [97] := by
  have h : (Amf0.decode { St.buffer [] with data := [2, 0, 1, 97], eofOnEmpty := true, lim := id }).1 = .ok (.str [97]) := by decide +kernel
  exact ⟨(Amf0.decode { St.buffer [] with data := [2, 0, 1, 97], eofOnEmpty := true, lim := id }).2, by rw [← h]⟩

/-- An AVC picture, AAC sound and the string "a" as script data. -/
example : (Spec.Flv.inTurn sampleMixer (again [⟨9, 40, [0x17, 1, 0, 0, 0, 5]⟩, ⟨18, 41, [2, 0, 1, 97]⟩, ⟨8, 0xffffffff, [0xaf, 1, 7]⟩])).2.flv.out =
    sampleMixer.flv.out ++ [TagRec.mk 9 40 [0x17, 1, 0, 0, 0, 5], ⟨18, 41, [2, 0, 1, 97]⟩, ⟨8, 0xffffffff, [0xaf, 1, 7]⟩].flatMap TagRec.bytes :=
  (C171_copy_partial sampleMixer sampleMixer_reached (fun _ => rfl) _
    (by
      intro t h
      simp only [List.mem_cons, List.not_mem_nil, or_false] at h
      rcases h with rfl | rfl | rfl <;> simp [TagRec.Fits])
    (by
      intro t h
      simp only [List.mem_cons, List.not_mem_nil, or_false] at h
      rcases h with rfl | rfl | rfl
      · exact .inl rfl
      · exact .inr (.inr ⟨rfl, [97], startsWith_a, by decide +kernel⟩)
      · exact .inr (.inl rfl))).2

/-- C171 fails for script data that was sent with "@setDataFrame" and has no string behind it: the mixer writes the tag, and the tag is
rejected when it is read and muxed again. -/
theorem C171_value_refuted (x y : Flv.Mixer) (hx : MixerReached x) (hy : MixerReached y) (hw : x.flv.Reliable) (d : Bytes) (hl : d.length < 2 ^ 24) (pts : UInt32)
    (hv : ∃ v, (Amf0.decode (St.reader d)).1 = .ok v ∧ ∀ s, v ≠ .str s) :
    (x.mux { type := 2, data := metaHeader ++ d } pts).2.1.flv.out = x.flv.out ++ (TagRec.mk 18 pts.toNat d).bytes ∧
    ∃ e, Spec.Flv.inTurn y (again [⟨18, pts.toNat, d⟩]) = ([(.err e, (TagRec.mk 18 pts.toNat d).packet)], y) := by
  obtain ⟨m', h1, h2⟩ := C14_strip x hx hw { type := 2, data := metaHeader ++ d } pts d rfl rfl hl
  refine ⟨by rw [h1]; exact h2, ?_⟩
  obtain ⟨e, he⟩ := C14_reject y hy (TagRec.mk 18 pts.toNat d).packet (UInt32.ofNat pts.toNat) rfl (.inl hv)
  refine ⟨e, ?_⟩
  have hc : call (.mux (TagRec.mk 18 pts.toNat d).packet (UInt32.ofNat pts.toNat)) y = (.err e, y, (TagRec.mk 18 pts.toNat d).packet) := he
  simp only [again, List.map_cons, List.map_nil, Spec.Flv.inTurn, hc]

/-- "@setDataFrame" and then null. -/
example : ∃ e, Spec.Flv.inTurn sampleMixer (again [⟨18, 7, [5]⟩]) = ([(.err e, (TagRec.mk 18 7 [5]).packet)], sampleMixer) :=
  (C171_value_refuted sampleMixer sampleMixer sampleMixer_reached sampleMixer_reached (fun _ => rfl) [5] (by decide) 7
    ⟨.nil, by decide +kernel, by simp⟩).2

/-- C171 fails for script data with "@setDataFrame" twice in front: the tag that is written for it still begins with one, and when the
tag is muxed again it is another one. -/
theorem C171_twice_refuted (x y : Flv.Mixer) (hx : MixerReached x) (hy : MixerReached y) (hw : x.flv.Reliable) (hw' : y.flv.Reliable) (d : Bytes)
    (hl : d.length < 2 ^ 24 - 16) (pts : UInt32) :
    (x.mux { type := 2, data := metaHeader ++ (metaHeader ++ d) } pts).2.1.flv.out = x.flv.out ++ (TagRec.mk 18 pts.toNat (metaHeader ++ d)).bytes ∧
    (Spec.Flv.inTurn y (again [⟨18, pts.toNat, metaHeader ++ d⟩])).2.flv.out = y.flv.out ++ (TagRec.mk 18 pts.toNat d).bytes := by
  have hm : metaHeader.length = 16 := rfl
  obtain ⟨m', h1, h2⟩ := C14_strip x hx hw { type := 2, data := metaHeader ++ (metaHeader ++ d) } pts (metaHeader ++ d) rfl rfl
    (by rw [List.length_append]; omega)
  refine ⟨by rw [h1]; exact h2, ?_⟩
  obtain ⟨m'', h3, h4⟩ := C14_strip y hy hw' (TagRec.mk 18 pts.toNat (metaHeader ++ d)).packet (UInt32.ofNat pts.toNat) d rfl rfl (by omega)
  have hc : call (.mux (TagRec.mk 18 pts.toNat (metaHeader ++ d)).packet (UInt32.ofNat pts.toNat)) y = _ := h3
  simp only [again, List.map_cons, List.map_nil, Spec.Flv.inTurn, hc]
  rw [h4]
  simp

example : (Spec.Flv.inTurn sampleMixer (again [⟨18, 7, metaHeader ++ [2, 0, 1, 97]⟩])).2.flv.out = sampleMixer.flv.out ++ (TagRec.mk 18 7 [2, 0, 1, 97]).bytes :=
  (C171_twice_refuted sampleMixer sampleMixer sampleMixer_reached sampleMixer_reached (fun _ => rfl) (fun _ => rfl) [2, 0, 1, 97] (by decide) 7).2

end Verif.Props
