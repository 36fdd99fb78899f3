import Verif.Lemmas.FlvMixer
import Verif.Props.Amf0Refs
/-!
# Properties C07–C16: FLV

The file format (writer and reader) is specified in `Verif/Spec/Flv.lean`.
-/
namespace Verif.Props
open Verif Verif.Amf

section Flv
open Verif.Flv Verif.Spec.Flv

/-! ## C07 -/

theorem shr4 (b : UInt8) : (b >>> 4).toNat = b.toNat / 16 := by
  simp [Nat.shiftRight_eq_div_pow]

theorem shr4_eq (b c : UInt8) : (b >>> 4 = c) ↔ b.toNat / 16 = c.toNat := by
  rw [← UInt8.toNat_inj, shr4]

theorem and15 (b : UInt8) : (b &&& 0xf) = UInt8.ofNat (b.toNat % 16) := by
  apply UInt8.toNat_inj.mp
  rw [UInt8.toNat_and]
  have : b.toNat &&& 15 = b.toNat % 16 := Nat.and_two_pow_sub_one_eq_mod _ 4
  rw [UInt8.toNat_ofNat', show (0xf : UInt8).toNat = 15 from rfl, this]
  omega

theorem and15_eq (b c : UInt8) (hc : c.toNat < 16) : (b &&& 0xf = c) ↔ b.toNat % 16 = c.toNat := by
  rw [and15, ← UInt8.toNat_inj, UInt8.toNat_ofNat']
  omega

theorem ctStep3 (a b c : UInt8) : (ctStep (ctStep (ctStep 0 a) b) c).toNat = a.toNat * 65536 + b.toNat * 256 + c.toNat := by
  have := a.toNat_lt; have := b.toNat_lt; have := c.toNat_lt
  simp [ctStep, UInt32.toNat_add, UInt32.toNat_shiftLeft, Nat.shiftLeft_eq]
  omega

theorem ctStep3_int (a b c : UInt8) : (ctStep (ctStep (ctStep 0 a) b) c).toBitVec.toInt = ((a.toNat * 65536 + b.toNat * 256 + c.toNat : Nat) : Int) := by
  have := a.toNat_lt; have := b.toNat_lt; have := c.toNat_lt
  have h := ctStep3 a b c
  have h' : (ctStep (ctStep (ctStep 0 a) b) c).toBitVec.toNat = a.toNat * 65536 + b.toNat * 256 + c.toNat := h
  rw [BitVec.toInt_eq_toNat_cond, h', if_pos (by omega)]

/-- The answers of the video header interface for a tag with the given frame type, codec, AVC packet type and
composition time: AVC is codec 7, key frames are frame type 1, inter frames 2, sequence headers and ends of
sequence are key frames with AVC packet type 0 and 2, and only AVC packet type 1 has a composition time. -/
def videoAnswers (frameType codec avcType : Nat) (ct : Int) : VideoHdr where
  isKeyFrame := frameType == 1
  isInterFrame := frameType == 2
  isSeqHdr := frameType == 1 && avcType == 0
  isEndOfSeq := frameType == 1 && avcType == 2
  isCodecAvc := codec == 7
  codecID := UInt8.ofNat codec
  compositionTime := if avcType = 1 then ct else 0

theorem parse_video (b0 b1 b2 b3 b4 : UInt8) (payload : Bytes) :
    parseVideoHeader (b0 :: b1 :: b2 :: b3 :: b4 :: payload) {} =
      if b0.toNat / 16 = 2 ∨ b0.toNat / 16 = 1 then
        (.ok 5, { frameType := b0 >>> 4, codecID := b0 &&& 0xf, avcType := b1,
                  compositionTime := ctStep (ctStep (ctStep 0 b2) b3) b4 })
      else (.ok 1, { frameType := b0 >>> 4, codecID := b0 &&& 0xf }) := by
  unfold parseVideoHeader
  have hl : ¬ (b0 :: b1 :: b2 :: b3 :: b4 :: payload).length < 5 := by simp
  rw [if_neg hl]
  have g0 : goIndex (b0 :: b1 :: b2 :: b3 :: b4 :: payload) 0 = .ok b0 := rfl
  have g1 : goIndex (b0 :: b1 :: b2 :: b3 :: b4 :: payload) 1 = .ok b1 := rfl
  have g2 : goIndex (b0 :: b1 :: b2 :: b3 :: b4 :: payload) 2 = .ok b2 := rfl
  have g3 : goIndex (b0 :: b1 :: b2 :: b3 :: b4 :: payload) 3 = .ok b3 := rfl
  have g4 : goIndex (b0 :: b1 :: b2 :: b3 :: b4 :: payload) 4 = .ok b4 := rfl
  simp only [GoM.bind_apply, GoM.lift_apply, GoM.modify_apply, GoM.get_apply, g0]
  simp only [shr4_eq, InterFrame, KeyFrame, show (2 : UInt8).toNat = 2 from rfl, show (1 : UInt8).toNat = 1 from rfl]
  by_cases h : b0.toNat / 16 = 2 ∨ b0.toNat / 16 = 1
  · simp only [h, if_true, GoM.bind_apply, GoM.lift_apply, GoM.modify_apply, g1, g2, g3, g4, GoM.pure_apply]
  · simp only [h, if_false, GoM.pure_apply]

theorem goSlice_tail (n : Nat) (l : Bytes) (h : n ≤ l.length) : goSlice l n l.length = .ok (l.drop n) := by
  unfold goSlice
  rw [if_pos (by omega), Int.toNat_natCast, Int.toNat_natCast, List.take_length]

/-- C07: a video tag of a key or inter frame. -/
theorem C07_flv_video_header (p : Packet) (ht : p.type = 0) (b0 b1 b2 b3 b4 : UInt8) (payload : Bytes)
    (hd : p.data = b0 :: b1 :: b2 :: b3 :: b4 :: payload) (hf : b0.toNat / 16 = 1 ∨ b0.toNat / 16 = 2) :
    ∃ h, demux p = (.ok (), { p with header := some h, media := payload }) ∧
      h.video = some (videoAnswers (b0.toNat / 16) (b0.toNat % 16) b1.toNat
        (b2.toNat * 65536 + b3.toNat * 256 + b4.toNat : Nat)) := by
  unfold demux
  rw [ht, show parseMediaTagHeader p.data 0 {} = parseVideoHeader p.data {} from rfl, hd, parse_video, if_pos hf.symm]
  simp only
  rw [show (5 : Int) = ((5 : Nat) : Int) from rfl, goSlice_tail 5 _ (by simp)]
  refine ⟨_, rfl, ?_⟩
  have hc : b0.toNat % 16 < 16 := Nat.mod_lt _ (by decide)
  have k : ∀ c : UInt8, decide (b1 = c) = (b1.toNat == c.toNat) := fun c => by
    rw [Bool.eq_iff_iff]; simp [UInt8.toNat_inj]
  simp only [Tag.header, Tag.video, videoAnswers, ctStep3_int, shr4_eq, KeyFrame, InterFrame, AvcSeqHdr, AvcEndOfSeq, AvcNalu, AvcH264]
  congr 2
  · rw [Bool.eq_iff_iff]; simp [← UInt8.toNat_inj]
  · rw [Bool.eq_iff_iff]; simp [← UInt8.toNat_inj]
  · rw [Bool.eq_iff_iff]; simp [and15_eq]
  · exact and15 b0
  · have : (b1 = 1) ↔ b1.toNat = 1 := by rw [← UInt8.toNat_inj]; rfl
    simp [this]

/-- C07: a video tag of any other frame type; only the first byte is consumed. -/
theorem C07_flv_video_other (p : Packet) (ht : p.type = 0) (b0 b1 b2 b3 b4 : UInt8) (payload : Bytes)
    (hd : p.data = b0 :: b1 :: b2 :: b3 :: b4 :: payload) (hf : ¬ (b0.toNat / 16 = 1 ∨ b0.toNat / 16 = 2)) :
    ∃ h, demux p = (.ok (), { p with header := some h, media := b1 :: b2 :: b3 :: b4 :: payload }) ∧
      h.video = some (videoAnswers (b0.toNat / 16) (b0.toNat % 16) 0 0) := by
  unfold demux
  rw [ht, show parseMediaTagHeader p.data 0 {} = parseVideoHeader p.data {} from rfl, hd, parse_video,
    if_neg (fun h => hf h.symm)]
  simp only
  rw [show (1 : Int) = ((1 : Nat) : Int) from rfl, goSlice_tail 1 _ (by simp)]
  refine ⟨_, rfl, ?_⟩
  have hc : b0.toNat % 16 < 16 := Nat.mod_lt _ (by decide)
  simp only [Tag.header, Tag.video, videoAnswers, shr4_eq, KeyFrame, InterFrame, AvcSeqHdr, AvcEndOfSeq, AvcNalu, AvcH264]
  congr 2
  · have : ¬ b0.toNat / 16 = 1 := fun h => hf (.inl h)
    simp [this]
  · simp
  · rw [Bool.eq_iff_iff]; simp [and15_eq]
  · exact and15 b0

example : ∃ h, demux { type := 0, data := [0x17, 1, 0, 1, 2, 9, 8] } =
    (.ok (), { type := 0, data := [0x17, 1, 0, 1, 2, 9, 8], header := some h, media := [9, 8] }) ∧
    h.video = some ⟨true, false, false, false, true, 7, 258⟩ :=
  C07_flv_video_header { type := 0, data := [0x17, 1, 0, 1, 2, 9, 8] } rfl 0x17 1 0 1 2 [9, 8] rfl (by decide)

example : ∃ h, demux { type := 0, data := [0x57, 1, 0, 1, 2] } =
    (.ok (), { type := 0, data := [0x57, 1, 0, 1, 2], header := some h, media := [1, 0, 1, 2] }) ∧
    h.video = some ⟨false, false, false, false, true, 7, 0⟩ :=
  C07_flv_video_other { type := 0, data := [0x57, 1, 0, 1, 2] } rfl 0x57 1 0 1 2 [] rfl (by decide)

/-! ## C08 -/

/-- The answers of the audio header interface: AAC is format 10, MP3 format 2, an AAC sequence header has AAC
packet type 0. -/
def audioAnswers (format aacType : Nat) : AudioHdr where
  soundFormat := UInt8.ofNat format
  aacType := UInt8.ofNat aacType
  isSoundAAC := format == 10
  isSoundMP3 := format == 2
  isAACSeqHdr := aacType == 0

theorem parse_audio (b0 b1 : UInt8) (payload : Bytes) :
    (parseAudioHeader (b0 :: b1 :: payload) {}).1 =
      (if b0.toNat / 16 = 10 then .ok 2 else if b0.toNat / 16 = 2 then .ok 1 else .err .other) ∧
    (parseAudioHeader (b0 :: b1 :: payload) {}).2 =
      { soundFormat := b0 >>> 4, soundRate := (b0 >>> 2) &&& 3, soundSize := (b0 >>> 1) &&& 1, soundType := b0 &&& 1,
        aacType := if b0.toNat / 16 = 10 then b1 else 0 } := by
  unfold parseAudioHeader
  have hl : ¬ (b0 :: b1 :: payload).length < 2 := by simp
  rw [if_neg hl]
  have g0 : goIndex (b0 :: b1 :: payload) 0 = .ok b0 := rfl
  have g1 : goIndex (b0 :: b1 :: payload) 1 = .ok b1 := rfl
  simp only [GoM.bind_apply, GoM.lift_apply, GoM.modify_apply, GoM.get_apply, g0]
  have q10 : (b0 >>> 4 = SoundAAC) ↔ b0.toNat / 16 = 10 := shr4_eq _ _
  have q2 : (b0 >>> 4 = SoundMP3) ↔ b0.toNat / 16 = 2 := shr4_eq _ _
  by_cases h : b0.toNat / 16 = 10
  · rw [if_pos (q10.mpr h), if_pos h, if_pos h]
    simp only [GoM.bind_apply, GoM.lift_apply, GoM.modify_apply, g1, GoM.pure_apply, and_self]
  · rw [if_neg (fun x => h (q10.mp x)), if_neg h, if_neg h]
    by_cases h2 : b0.toNat / 16 = 2
    · rw [if_pos (q2.mpr h2), if_pos h2]
      simp only [GoM.pure_apply, and_self]
    · rw [if_neg (fun x => h2 (q2.mp x)), if_neg h2]
      simp only [GoM.fail_apply, and_self]

/-- C08: an audio tag is decoded by its sound format: AAC (10) and MP3 (2); any other is an error. -/
theorem C08_flv_audio_header (p : Packet) (ht : p.type = 1) (b0 b1 : UInt8) (payload : Bytes)
    (hd : p.data = b0 :: b1 :: payload) :
    (b0.toNat / 16 = 10 → ∃ h, demux p = (.ok (), { p with header := some h, media := payload }) ∧
      h.audio = some (audioAnswers 10 b1.toNat)) ∧
    (b0.toNat / 16 = 2 → ∃ h, demux p = (.ok (), { p with header := some h, media := b1 :: payload }) ∧
      h.audio = some (audioAnswers 2 0)) ∧
    (b0.toNat / 16 ≠ 10 → b0.toNat / 16 ≠ 2 → demux p = (.err .other, p)) := by
  obtain ⟨e1, e2⟩ := parse_audio b0 b1 payload
  have hp : parseMediaTagHeader p.data p.type {} = parseAudioHeader (b0 :: b1 :: payload) {} := by
    rw [ht, hd]; rfl
  rcases hq : parseAudioHeader (b0 :: b1 :: payload) {} with ⟨r, tag⟩
  rw [hq] at e1 e2
  simp only at e1 e2
  refine ⟨fun h => ?_, fun h => ?_, fun h h' => ?_⟩
  · rw [if_pos h] at e1 e2
    unfold demux
    rw [hp, hq, e1, e2]
    simp only
    rw [hd, show (2 : Int) = ((2 : Nat) : Int) from rfl, goSlice_tail 2 _ (by simp)]
    refine ⟨_, rfl, ?_⟩
    simp only [Tag.header, Tag.audio, audioAnswers, shr4_eq, SoundAAC, SoundMP3, AacSeqHdr, h]
    congr 2
    · apply UInt8.toNat_inj.mp; rw [shr4, h]; rfl
    · simp
    · rw [Bool.eq_iff_iff]; simp [← UInt8.toNat_inj]
  · rw [if_neg (by omega), if_pos h] at e1
    rw [if_neg (by omega)] at e2
    unfold demux
    rw [hp, hq, e1, e2]
    simp only
    rw [hd, show (1 : Int) = ((1 : Nat) : Int) from rfl, goSlice_tail 1 _ (by simp)]
    refine ⟨_, rfl, ?_⟩
    simp only [Tag.header, Tag.audio, audioAnswers, shr4_eq, SoundAAC, SoundMP3, AacSeqHdr, h]
    congr 2
    · apply UInt8.toNat_inj.mp; rw [shr4, h]; rfl
  · rw [if_neg h, if_neg h'] at e1
    unfold demux
    rw [hp, hq, e1]

example : ∃ h, demux { type := 1, data := [0xaf, 0, 0x12, 0x10] } =
    (.ok (), { type := 1, data := [0xaf, 0, 0x12, 0x10], header := some h, media := [0x12, 0x10] }) ∧
    h.audio = some ⟨10, 0, true, false, true⟩ :=
  (C08_flv_audio_header { type := 1, data := [0xaf, 0, 0x12, 0x10] } rfl 0xaf 0 [0x12, 0x10] rfl).1 (by decide)

/-! ## C09 -/

/-- C09: `Demux` succeeds or fails, never panics; it fails exactly for unknown packet types, video data shorter
than 5 bytes, audio data shorter than 2 bytes or of an unsupported format, and then leaves the packet as it
was; when it succeeds only `Header` and `Media` change, and `Media` is a suffix of `Data`. -/
theorem C09_flv_demux_total (p : Packet) :
    ((p.type = 0 ∧ p.data.length < 5) ∨
      (p.type = 1 ∧ (p.data.length < 2 ∨ ∃ b ∈ p.data.head?, b.toNat / 16 ≠ 10 ∧ b.toNat / 16 ≠ 2)) ∨
      (p.type ≠ 0 ∧ p.type ≠ 1 ∧ p.type ≠ 2) →
        ∃ e, demux p = (.err e, p)) ∧
    (¬ ((p.type = 0 ∧ p.data.length < 5) ∨
      (p.type = 1 ∧ (p.data.length < 2 ∨ ∃ b ∈ p.data.head?, b.toNat / 16 ≠ 10 ∧ b.toNat / 16 ≠ 2)) ∨
      (p.type ≠ 0 ∧ p.type ≠ 1 ∧ p.type ≠ 2)) →
        ∃ h m, demux p = (.ok (), { p with header := some h, media := m }) ∧ m <:+ p.data) := by
  constructor
  · rintro (⟨ht, hl⟩ | ⟨ht, hl⟩ | ⟨h0, h1, h2⟩)
    · refine ⟨.other, ?_⟩
      unfold demux
      rw [ht, show parseMediaTagHeader p.data 0 {} = parseVideoHeader p.data {} from rfl]
      unfold parseVideoHeader
      rw [if_pos hl]; rfl
    · rcases hp : p.data with _ | ⟨b0, _ | ⟨b1, payload⟩⟩
      · refine ⟨.other, ?_⟩
        unfold demux
        rw [ht, hp]; rfl
      · refine ⟨.other, ?_⟩
        unfold demux
        rw [ht, hp]; rfl
      · rw [hp] at hl
        obtain ⟨h1, h2⟩ : b0.toNat / 16 ≠ 10 ∧ b0.toNat / 16 ≠ 2 := by
          rcases hl with hl | ⟨b, hb, h⟩
          · simp at hl; omega
          · simp at hb; subst hb; exact h
        exact ⟨.other, (C08_flv_audio_header p ht b0 b1 payload hp).2.2 h1 h2⟩
    · refine ⟨.other, ?_⟩
      unfold demux parseMediaTagHeader
      simp [PktVideo, PktAudio, PktMetadata, h0, h1, h2]
  · intro h
    by_cases h0 : p.type = 0
    · rcases hp : p.data with _ | ⟨b0, _ | ⟨b1, _ | ⟨b2, _ | ⟨b3, _ | ⟨b4, payload⟩⟩⟩⟩⟩
      · exact absurd (.inl ⟨h0, by simp [hp]⟩) h
      · exact absurd (.inl ⟨h0, by simp [hp]⟩) h
      · exact absurd (.inl ⟨h0, by simp [hp]⟩) h
      · exact absurd (.inl ⟨h0, by simp [hp]⟩) h
      · exact absurd (.inl ⟨h0, by simp [hp]⟩) h
      · by_cases hf : b0.toNat / 16 = 1 ∨ b0.toNat / 16 = 2
        · obtain ⟨hd, h1, _⟩ := C07_flv_video_header p h0 b0 b1 b2 b3 b4 payload hp hf
          exact ⟨hd, payload, by rw [h1, hp], [b0, b1, b2, b3, b4], rfl⟩
        · obtain ⟨hd, h1, _⟩ := C07_flv_video_other p h0 b0 b1 b2 b3 b4 payload hp hf
          exact ⟨hd, b1 :: b2 :: b3 :: b4 :: payload, by rw [h1, hp], [b0], rfl⟩
    · by_cases h1 : p.type = 1
      · rcases hp : p.data with _ | ⟨b0, _ | ⟨b1, payload⟩⟩
        · exact absurd (.inr (.inl ⟨h1, .inl (by simp [hp])⟩)) h
        · exact absurd (.inr (.inl ⟨h1, .inl (by simp [hp])⟩)) h
        · by_cases ha : b0.toNat / 16 = 10
          · obtain ⟨hd, h2, _⟩ := (C08_flv_audio_header p h1 b0 b1 payload hp).1 ha
            exact ⟨hd, payload, by rw [h2, hp], [b0, b1], rfl⟩
          · by_cases hm : b0.toNat / 16 = 2
            · obtain ⟨hd, h2, _⟩ := (C08_flv_audio_header p h1 b0 b1 payload hp).2.1 hm
              exact ⟨hd, b1 :: payload, by rw [h2, hp], [b0], rfl⟩
            · exact absurd (.inr (.inl ⟨h1, .inr ⟨b0, by simp [hp], ha, hm⟩⟩)) h
      · have h2 : p.type = 2 := Classical.byContradiction fun h2 => h (.inr (.inr ⟨h0, h1, h2⟩))
        refine ⟨Tag.header {}, p.data, ?_, List.suffix_refl _⟩
        unfold demux parseMediaTagHeader
        rw [if_neg (by rw [h2]; decide), if_neg (by rw [h2]; decide), if_pos (by rw [h2]; decide)]
        simp only [GoM.pure_apply]
        rw [show (0 : Int) = ((0 : Nat) : Int) from rfl, goSlice_tail 0 _ (by simp)]
        rfl

example : ∃ e, demux { type := 0, data := [0x17, 1, 0, 0] } = (.err e, { type := 0, data := [0x17, 1, 0, 0] }) :=
  (C09_flv_demux_total { type := 0, data := [0x17, 1, 0, 0] }).1 (.inl ⟨rfl, by decide⟩)

/-! ## C10 -/

/-- The signed 24-bit number in three bytes. -/
def si24 (b2 b3 b4 : UInt8) : Int :=
  let n := b2.toNat * 65536 + b3.toNat * 256 + b4.toNat
  if n < 2 ^ 23 then n else (n : Int) - 2 ^ 24

/-- C10 (partial): the composition time of an AVC NALU tag is the signed 24-bit number when that is not
negative.  Missing: negative ones (`C10_flv_composition_refuted`). -/
theorem C10_flv_composition_partial (p : Packet) (ht : p.type = 0) (b0 b2 b3 b4 : UInt8) (payload : Bytes)
    (hd : p.data = b0 :: 1 :: b2 :: b3 :: b4 :: payload) (hf : b0.toNat / 16 = 1 ∨ b0.toNat / 16 = 2) (hs : b2.toNat < 128) :
    ∃ h v, (demux p).2.header = some h ∧ h.video = some v ∧ v.compositionTime = si24 b2 b3 b4 := by
  obtain ⟨h, h1, h2⟩ := C07_flv_video_header p ht b0 1 b2 b3 b4 payload hd hf
  refine ⟨h, _, by rw [h1], h2, ?_⟩
  have := b3.toNat_lt; have := b4.toNat_lt
  simp only [videoAnswers, si24, show (1 : UInt8).toNat = 1 from rfl, if_true]
  rw [if_pos (by omega)]

/-- C10 fails for every negative composition time: 2^24 too much is reported. -/
theorem C10_flv_composition_refuted (p : Packet) (ht : p.type = 0) (b0 b2 b3 b4 : UInt8) (payload : Bytes)
    (hd : p.data = b0 :: 1 :: b2 :: b3 :: b4 :: payload) (hf : b0.toNat / 16 = 1 ∨ b0.toNat / 16 = 2) (hs : 128 ≤ b2.toNat) :
    ∃ h v, (demux p).2.header = some h ∧ h.video = some v ∧ v.compositionTime = si24 b2 b3 b4 + 2 ^ 24 := by
  obtain ⟨h, h1, h2⟩ := C07_flv_video_header p ht b0 1 b2 b3 b4 payload hd hf
  refine ⟨h, _, by rw [h1], h2, ?_⟩
  have := b3.toNat_lt; have := b4.toNat_lt
  simp only [videoAnswers, si24, show (1 : UInt8).toNat = 1 from rfl, if_true]
  rw [if_neg (by omega)]
  omega

example : ∃ h v, (demux { type := 0, data := [0x17, 1, 0, 0, 40] }).2.header = some h ∧ h.video = some v ∧ v.compositionTime = 40 := by
  rw [← show si24 0 0 40 = 40 by decide +kernel]
  exact C10_flv_composition_partial { type := 0, data := [0x17, 1, 0, 0, 40] } rfl 0x17 0 0 40 [] rfl (by decide) (by decide)
/-- -40 ms is reported as 16777176 ms. -/
example : ∃ h v, (demux { type := 0, data := [0x17, 1, 255, 255, 216] }).2.header = some h ∧ h.video = some v ∧ v.compositionTime = 16777176 := by
  rw [← show si24 255 255 216 + 2 ^ 24 = 16777176 by decide +kernel]
  exact C10_flv_composition_refuted { type := 0, data := [0x17, 1, 255, 255, 216] } rfl 0x17 255 255 216 [] rfl (by decide) (by decide)

/-! ## Histories -/

/-- The bytes `Encode` writes for a metadata object. -/
abbrev mdBytes (md : List (Bytes × Val)) : Bytes := amf0Bytes (.obj md)

/-- The mixer after some history of calls with data that fits into FLV tags (writers may fail). -/
def MixerReached (m : Mixer) : Prop := ∃ w ops, (∀ op ∈ ops, Op.Small mdBytes op) ∧ m = (run mdBytes ops (start w)).1

theorem reached_remembers {m : Mixer} (h : MixerReached m) : ∃ t, Remembers m t := by
  obtain ⟨w, ops, hs, rfl⟩ := h
  exact ⟨_, remembers_run ops (start w) (remembers_new w) hs⟩

theorem mixer_mux_eq (m : Mixer) (p : Packet) (pts : UInt32) : m.mux p pts =
    ((Flv.mux pts ⟨m.muxer, p, m.flv⟩).1, { m with muxer := (Flv.mux pts ⟨m.muxer, p, m.flv⟩).2.m, flv := (Flv.mux pts ⟨m.muxer, p, m.flv⟩).2.w },
      (Flv.mux pts ⟨m.muxer, p, m.flv⟩).2.p) := rfl

theorem mixer_mux_prep (m : Mixer) (h : MixerReached m) (hw : m.flv.Reliable) (p p' : Packet) (pts : UInt32)
    (hp : prep p = .ok p') (hl : p'.data.length < 2 ^ 24) :
    ∃ m', m.mux p pts = (.ok (), m', p') ∧ m'.flv.out = m.flv.out ++ (tagOf p' pts.toNat).bytes := by
  obtain ⟨t, hr⟩ := reached_remembers h
  obtain ⟨mm, _, _, he⟩ := (mux_eq pts ⟨m.muxer, p, m.flv⟩ hr.good).2.2.2 p' hp
  simp only at he
  rw [runChunks_reliable _ _ hw] at he
  rw [mixer_mux_eq, he]
  refine ⟨_, rfl, ?_⟩
  simp only
  rw [chunks_flatten p.type pts p'.data hl, tagType_tagOf, (prep_ok p p' hp).1]

theorem mixer_mux_err (m : Mixer) (h : MixerReached m) (p : Packet) (pts : UInt32) (e : Err)
    (hp : prep p = .err e) : m.mux p pts = (.err e, m, p) := by
  obtain ⟨t, hr⟩ := reached_remembers h
  rw [mixer_mux_eq, (mux_eq pts ⟨m.muxer, p, m.flv⟩ hr.good).1 e hp]

/-- A reached mixer with a new writer is reached. -/
theorem MixerReached.setWriter {m : Mixer} (h : MixerReached m) (w : Sink) : MixerReached (m.setWriter w) := by
  obtain ⟨w0, ops, hs, rfl⟩ := h
  refine ⟨w0, ops ++ [.setWriter w], ?_, ?_⟩
  · intro op ho
    rcases List.mem_append.mp ho with ho | ho
    · exact hs op ho
    · rw [List.mem_singleton.mp ho]; trivial
  · have : ∀ (ops : List Op) mt, run mdBytes (ops ++ [.setWriter w]) mt =
        (((run mdBytes ops mt).1.setWriter w), { (run mdBytes ops mt).2 with base := w.out, items := [] }) := by
      intro ops
      induction ops with
      | nil => intro mt; rfl
      | cons op ops ih => intro mt; exact ih _
    rw [this]

/-- A new mixer, and one with saved headers, metadata and muxed data. -/
def sampleMixer : Mixer := (run mdBytes [.saveMetadata [], .saveAVCHeader { type := 0, data := [0x17, 0, 0, 0, 0, 1] },
  .setFlvHeader, .mux { type := 1, data := [0xaf, 1, 7] } 40] (start Sink.mem)).1

theorem sampleMixer_reached : MixerReached sampleMixer := by
  refine ⟨Sink.mem, _, ?_, rfl⟩
  intro op ho
  simp only [List.mem_cons, List.not_mem_nil, or_false] at ho
  rcases ho with rfl | rfl | rfl | rfl
  · show (amf0Bytes (.obj [])).length < 2 ^ 24 - 13
    rw [show amf0Bytes (.obj []) = [3, 0, 0, 9] by decide +kernel]; decide
  · show 6 < 2 ^ 24; decide
  · trivial
  · show 3 < 2 ^ 24; decide

/-! ## C11 -/

/-- C11: after any history, muxing a video (audio) packet of less than 2^24 bytes writes exactly one tag of
type 9 (8) with the packet's data and the 32-bit timestamp. -/
theorem C11_flv_tag (m : Mixer) (h : MixerReached m) (hw : m.flv.Reliable) (p : Packet) (pts : UInt32)
    (hl : p.data.length < 2 ^ 24) (ht : p.type = 0 ∨ p.type = 1) :
    ∃ m', m.mux p pts = (.ok (), m', p) ∧
      m'.flv.out = m.flv.out ++ (TagRec.mk (if p.type = 0 then 9 else 8) pts.toNat p.data).bytes := by
  have hp : prep p = .ok p := by unfold prep; rw [if_pos ht]
  obtain ⟨m', h1, h2⟩ := mixer_mux_prep m h hw p p pts hp hl
  refine ⟨m', h1, h2.trans ?_⟩
  rcases ht with ht | ht <;> simp [tagOf, ht]

/-- C11: muxing a metadata packet writes one tag of type 18 with the packet's data as it is after the call
(C14 says what that is), or fails and writes nothing. -/
theorem C11_flv_script_tag (m : Mixer) (h : MixerReached m) (hw : m.flv.Reliable) (p : Packet) (pts : UInt32)
    (hl : p.data.length < 2 ^ 24) (ht : p.type = 2) :
    (∃ m' d, m.mux p pts = (.ok (), m', { p with data := d }) ∧ m'.flv.out = m.flv.out ++ (TagRec.mk 18 pts.toNat d).bytes) ∨
    ((m.mux p pts).1 ≠ .ok () ∧ (m.mux p pts).2 = (m, p)) := by
  obtain ⟨t, hr⟩ := reached_remembers h
  obtain ⟨k1, k2, k3, k4⟩ := mux_eq pts ⟨m.muxer, p, m.flv⟩ hr.good
  cases hp : prep p with
  | err e => exact .inr (by rw [mixer_mux_eq, k1 e hp]; simp)
  | panic => exact .inr (by rw [mixer_mux_eq, k2 hp]; simp)
  | diverge => exact .inr (by rw [mixer_mux_eq, k3 hp]; simp)
  | ok p' =>
    obtain ⟨q1, q2, q3, q4⟩ := prep_ok p p' hp
    have hl' : p'.data.length < 2 ^ 24 := by
      rcases q3 with q3 | ⟨_, n, q3⟩
      · rw [q3]; exact hl
      · rw [q3, List.length_drop]; omega
    obtain ⟨m', h1, h2⟩ := mixer_mux_prep m h hw p p' pts hp hl'
    refine .inl ⟨m', p'.data, by rw [h1, ← q4], ?_⟩
    rw [h2]
    simp [tagOf, q1, ht]

/-- C11: a packet of another type is an error and nothing is written. -/
theorem C11_flv_unknown (m : Mixer) (h : MixerReached m) (p : Packet) (pts : UInt32)
    (ht : p.type ≠ 0 ∧ p.type ≠ 1 ∧ p.type ≠ 2) : ∃ e, m.mux p pts = (.err e, m, p) := by
  refine ⟨.other, mixer_mux_err m h p pts _ ?_⟩
  unfold prep
  rw [if_neg (by omega), if_neg ht.2.2]

example : ∃ m', sampleMixer.mux { type := 0, data := [0x27, 1, 0, 0, 0, 5] } 0x12345678 =
      (.ok (), m', { type := 0, data := [0x27, 1, 0, 0, 0, 5] }) ∧
    m'.flv.out = sampleMixer.flv.out ++ (TagRec.mk 9 0x12345678 [0x27, 1, 0, 0, 0, 5]).bytes :=
  C11_flv_tag sampleMixer sampleMixer_reached (fun _ => rfl) _ _ (by decide) (.inl rfl)
example : (TagRec.mk 9 0x12345678 [0x27, 1, 0, 0, 0, 5]).bytes =
    [9, 0, 0, 6, 0x34, 0x56, 0x78, 0x12, 0, 0, 0, 0x27, 1, 0, 0, 0, 5, 0, 0, 0, 17] := by decide +kernel

/-! ## C12 -/

/-- C12: after any history of calls with data that fits and writers that do not fail, the current writer
contains what it did when it was set and then exactly the headers and tags of the account, in order. -/
theorem C12_flv_output (w : Sink) (hw : w.Reliable) (ops : List Op) (hs : ∀ op ∈ ops, op.Small mdBytes ∧ op.Reliable) :
    (run mdBytes ops (start w)).1.flv.out =
      (run mdBytes ops (start w)).2.base ++ (run mdBytes ops (start w)).2.items.flatMap Item.bytes :=
  (wrote_run ops (start w) (remembers_new w) (wrote_new w hw) hs).out

/-- C12: if what was written to an initially empty writer is one file header and then tags, an FLV reader
recovers exactly the two flags and the tags, front to back and back to front. -/
theorem C12_flv_roundtrip (w : Sink) (hw : w.Reliable) (ops : List Op) (hs : ∀ op ∈ ops, op.Small mdBytes ∧ op.Reliable)
    (v a : Bool) (ts : List TagRec) (hb : (run mdBytes ops (start w)).2.base = [])
    (hi : (run mdBytes ops (start w)).2.items = .header v a :: ts.map .tag) :
    readFile (run mdBytes ops (start w)).1.flv.out = some (v, a, ts) := by
  have hx := wrote_run ops (start w) (remembers_new w) (wrote_new w hw) hs
  rw [C12_flv_output w hw ops hs, hb, hi]
  have : (Item.header v a :: ts.map .tag).flatMap Item.bytes = Spec.Flv.header v a ++ ts.flatMap TagRec.bytes := by
    simp [List.flatMap_def, Item.bytes, Function.comp_def]
  rw [List.nil_append, this]
  apply readFile_write
  intro t ht
  apply hx.fits
  rw [hi]
  simp [ht]

/-- The history of `sampleMixer`, ending with the file
header (video), metadata, AVC header, an audio tag. -/
example : readFile sampleMixer.flv.out = some (true, false,
    [⟨18, 0, [2, 0, 10, 111, 110, 77, 101, 116, 97, 68, 97, 116, 97, 3, 0, 0, 9]⟩, ⟨9, 0, [0x17, 0, 0, 0, 0, 1]⟩, ⟨8, 40, [0xaf, 1, 7]⟩]) := by
  have hs : ∀ op ∈ [Op.saveMetadata [], .saveAVCHeader { type := 0, data := [0x17, 0, 0, 0, 0, 1] },
      .setFlvHeader, .mux { type := 1, data := [0xaf, 1, 7] } 40], op.Small mdBytes ∧ op.Reliable := by
    intro op ho
    simp only [List.mem_cons, List.not_mem_nil, or_false] at ho
    rcases ho with rfl | rfl | rfl | rfl
    · refine ⟨?_, trivial⟩
      show (amf0Bytes (.obj [])).length < 2 ^ 24 - 13
      rw [show amf0Bytes (.obj []) = [3, 0, 0, 9] by decide +kernel]; decide
    · exact ⟨show 6 < 2 ^ 24 by decide, trivial⟩
    · exact ⟨trivial, trivial⟩
    · exact ⟨show 3 < 2 ^ 24 by decide, trivial⟩
  exact C12_flv_roundtrip Sink.mem (fun _ => rfl) _ hs true false
    [⟨18, 0, [2, 0, 10, 111, 110, 77, 101, 116, 97, 68, 97, 116, 97, 3, 0, 0, 9]⟩, ⟨9, 0, [0x17, 0, 0, 0, 0, 1]⟩, ⟨8, 40, [0xaf, 1, 7]⟩]
    (by decide +kernel) (by decide +kernel)

/-! ## C13 -/

/-- Whether the history contains a call of `SaveAVCHeader`. -/
def savedAVC (ops : List Op) : Bool := ops.any fun | .saveAVCHeader _ => true | _ => false
/-- Whether the history contains a call of `SaveAACHeader`. -/
def savedAAC (ops : List Op) : Bool := ops.any fun | .saveAACHeader _ => true | _ => false

theorem run_flags (ops : List Op) (mt : Mixer × Track) :
    (run mdBytes ops mt).2.video = (mt.2.video || savedAVC ops) ∧ (run mdBytes ops mt).2.audio = (mt.2.audio || savedAAC ops) := by
  induction ops generalizing mt with
  | nil => simp [run, savedAVC, savedAAC]
  | cons op ops ih =>
    obtain ⟨h1, h2⟩ := ih ((call op mt.1).2.1, mt.2.step mdBytes op (okRes (call op mt.1).1) (call op mt.1).2.2)
    rw [run]
    simp only at h1 h2 ⊢
    rw [h1, h2]
    cases op <;> simp only [Track.step] <;> (try split) <;> simp [savedAVC, savedAAC]

/-- C13: after any history of calls with data that fits (whatever writers did), `SetFlvHeader` writes the file
header with the video (audio) flag set iff `SaveAVCHeader` (`SaveAACHeader`) was called, then the last saved
metadata, AVC and AAC tags in that order, each iff the last attempt to save it succeeded. -/
theorem C13_flv_header (w0 w : Sink) (ops : List Op) (hs : ∀ op ∈ ops, op.Small mdBytes) (hw : w.Reliable) :
    ∃ m', Mixer.setFlvHeader ((run mdBytes ops (start w0)).1.setWriter w) = (.ok (), m') ∧
      m'.flv.out = w.out ++ Spec.Flv.header (savedAVC ops) (savedAAC ops) ++
        (run mdBytes ops (start w0)).2.saved.flatMap TagRec.bytes := by
  have hr := remembers_run ops (start w0) (remembers_new w0) hs
  obtain ⟨f1, f2⟩ := run_flags ops (start w0)
  generalize run mdBytes ops (start w0) = mt at *
  have hr' : Remembers (mt.1.setWriter w) mt.2 := ⟨hr.good, hr.hdr, hr.types, hr.script, hr.avc, hr.aac, hr.fits⟩
  rw [setFlvHeader_eq _ _ hr', runChunks_reliable _ _ (show (mt.1.setWriter w).flv.Reliable from hw)]
  refine ⟨_, rfl, ?_⟩
  simp only [hdrChunks, f1, f2]
  simp [start, Mixer.setWriter, List.flatMap_def]

example : ∃ m', Mixer.setFlvHeader (sampleMixer.setWriter Sink.mem) = (.ok (), m') ∧
    m'.flv.out = [0x46, 0x4c, 0x56, 1, 1, 0, 0, 0, 9, 0, 0, 0, 0] ++
      ((TagRec.mk 18 0 [2, 0, 10, 111, 110, 77, 101, 116, 97, 68, 97, 116, 97, 3, 0, 0, 9]).bytes ++
       (TagRec.mk 9 0 [0x17, 0, 0, 0, 0, 1]).bytes) := ⟨_, Prod.ext (by decide +kernel) rfl, by decide +kernel⟩

/-! ## C14 -/

/-- C14: "@setDataFrame" is removed, from the tag and from the packet. -/
theorem C14_strip (m : Mixer) (h : MixerReached m) (hw : m.flv.Reliable) (p : Packet) (pts : UInt32) (d : Bytes)
    (ht : p.type = 2) (hd : p.data = metaHeader ++ d) (hl : d.length < 2 ^ 24) :
    ∃ m', m.mux p pts = (.ok (), m', { p with data := d }) ∧ m'.flv.out = m.flv.out ++ (TagRec.mk 18 pts.toNat d).bytes := by
  have hp : prep p = .ok { p with data := d } := by
    unfold prep
    rw [if_neg (by omega), if_pos ht, hd, C28_del_header]
  obtain ⟨m', h1, h2⟩ := mixer_mux_prep m h hw p _ pts hp hl
  refine ⟨m', h1, h2.trans ?_⟩
  simp [tagOf, ht]

/-- C14: data that begins with another string is kept. -/
theorem C14_keep (m : Mixer) (h : MixerReached m) (hw : m.flv.Reliable) (p : Packet) (pts : UInt32) (x : Bytes)
    (ht : p.type = 2) (hx : startsWithString (St.buffer []) p.data x) (hne : x ≠ setDataFrameChars) (hl : p.data.length < 2 ^ 24) :
    ∃ m', m.mux p pts = (.ok (), m', p) ∧ m'.flv.out = m.flv.out ++ (TagRec.mk 18 pts.toNat p.data).bytes := by
  have hp : prep p = .ok p := by
    unfold prep
    rw [if_neg (by omega), if_pos ht, show freshTables = St.buffer [] from rfl, C28_del_other (St.buffer []) p.data x hx hne]
  obtain ⟨m', h1, h2⟩ := mixer_mux_prep m h hw p p pts hp hl
  refine ⟨m', h1, h2.trans ?_⟩
  simp [tagOf, ht]

/-- C14: data that does not begin with an AMF0 value, or begins with one that is not a string, is an error;
nothing is written and the packet is unchanged. -/
theorem C14_reject (m : Mixer) (h : MixerReached m) (p : Packet) (pts : UInt32) (ht : p.type = 2)
    (hx : (∃ v, (Amf0.decode (St.reader p.data)).1 = .ok v ∧ ∀ s, v ≠ .str s) ∨ ∃ e, (Amf0.decode (St.reader p.data)).1 = .err e) :
    ∃ e, m.mux p pts = (.err e, m, p) := by
  have hp : ∃ e, prep p = .err e := by
    unfold prep
    rw [if_neg (by omega), if_pos ht]
    have hst : ({ freshTables with data := p.data, eofOnEmpty := true, lim := id } : St) = St.reader p.data := rfl
    unfold Amf0.delMetaHeader
    rw [hst]
    rcases hr : Amf0.decode (St.reader p.data) with ⟨r, s'⟩
    rw [hr] at hx
    rcases hx with ⟨v, hv, hn⟩ | ⟨e, he⟩
    · simp only at hv
      subst hv
      cases v with
      | str s => exact absurd rfl (hn s)
      | _ => exact ⟨_, rfl⟩
    · simp only at he
      subst he
      exact ⟨e, rfl⟩
  obtain ⟨e, he⟩ := hp
  exact ⟨e, mixer_mux_err m h p pts e he⟩

/-- C14: muxing the packet again writes the same bytes, unless what was behind the header begins with the
header itself. -/
theorem C14_again (m : Mixer) (h : MixerReached m) (hw : m.flv.Reliable) (p : Packet) (pts : UInt32) (d x : Bytes)
    (ht : p.type = 2) (hd : p.data = metaHeader ++ d) (hl : d.length < 2 ^ 24)
    (hx : startsWithString (St.buffer []) d x) (hne : x ≠ setDataFrameChars) :
    ∃ m' p', m.mux p pts = (.ok (), m', p') ∧ ∃ m'', m.mux p' pts = (.ok (), m'', p') ∧ m''.flv.out = m'.flv.out := by
  obtain ⟨m', h1, h2⟩ := C14_strip m h hw p pts d ht hd hl
  obtain ⟨m'', h3, h4⟩ := C14_keep m h hw { p with data := d } pts x ht hx hne hl
  exact ⟨m', _, h1, m'', h3, h4.trans h2.symm⟩

/-- C14 fails for metadata that begins with an AMF0 reference to index 0, on every mixer: `Mux` panics. -/
theorem C14_panic_refuted (m : Mixer) (h : MixerReached m) (rest : Bytes) (pts : UInt32) :
    (m.mux { type := 2, data := 7 :: 0 :: 0 :: rest } pts).1 = .panic := by
  obtain ⟨t, hr⟩ := reached_remembers h
  have hp : prep { type := 2, data := 7 :: 0 :: 0 :: rest } = .panic := by
    unfold prep
    rw [if_neg (by simp), if_pos rfl]
    have : (Amf0.decode (St.reader (7 :: 0 :: 0 :: rest))).1 = .panic := (C23_amf0_reference_panics_iff _ 0 (by decide) rest rfl).1.2 rfl
    have hst : ({ freshTables with data := 7 :: 0 :: 0 :: rest, eofOnEmpty := true, lim := id } : St) = St.reader (7 :: 0 :: 0 :: rest) := rfl
    unfold Amf0.delMetaHeader
    rw [hst]
    rcases hd : Amf0.decode (St.reader (7 :: 0 :: 0 :: rest)) with ⟨r, s'⟩
    rw [hd] at this
    simp only at this
    subst this
    rfl
  rw [mixer_mux_eq, (mux_eq pts ⟨m.muxer, _, m.flv⟩ hr.good).2.1 hp]

example : (sampleMixer.mux { type := 2, data := [7, 0, 0, 5] } 8).1 = .panic := C14_panic_refuted sampleMixer sampleMixer_reached [5] 8

/-- C14 fails for "@setDataFrame" written as a long string: two of its characters stay in the tag. -/
theorem C14_long_string_refuted (m : Mixer) (h : MixerReached m) (hw : m.flv.Reliable) (pts : UInt32) :
    ∃ m', m.mux { type := 2, data := [12, 0, 0, 0, 13] ++ setDataFrameChars ++ [5] } pts = (.ok (), m', { type := 2, data := [109, 101, 5] }) ∧
      m'.flv.out = m.flv.out ++ (TagRec.mk 18 pts.toNat [109, 101, 5]).bytes := by
  have hp : prep { type := 2, data := [12, 0, 0, 0, 13] ++ setDataFrameChars ++ [5] } = .ok { type := 2, data := [109, 101, 5] } := by
    decide +kernel
  exact mixer_mux_prep m h hw _ _ pts hp (show 3 < 2 ^ 24 by decide)

example : ∃ m', sampleMixer.mux { type := 2, data := metaHeader ++ sampleMeta } 0 =
      (.ok (), m', { type := 2, data := sampleMeta }) ∧
    m'.flv.out = sampleMixer.flv.out ++ (TagRec.mk 18 0 sampleMeta).bytes :=
  C14_strip sampleMixer sampleMixer_reached (fun _ => rfl) { type := 2, data := metaHeader ++ sampleMeta } 0 sampleMeta rfl rfl (by decide)
example : ∃ e, sampleMixer.mux { type := 2, data := [5] } 0 = (.err e, sampleMixer, { type := 2, data := [5] }) :=
  C14_reject sampleMixer sampleMixer_reached { type := 2, data := [5] } 0 rfl
    (.inl ⟨.nil, by decide +kernel, by simp⟩)

/-! ## C15 -/

/-- C15: whatever the writer does, the bytes it accepted are a prefix of those a writer that never fails
accepts; success means all of them were accepted and no `Write` failed; otherwise the result is an error. -/
def PrefixOnFailure (f : Mixer → Res Unit × Mixer) (m : Mixer) : Prop :=
  ∃ q, (f m).2.flv.out = m.flv.out ++ q ∧ q <+: (f (m.setWriter Sink.mem)).2.flv.out ∧
    ((f m).1 = .ok () → q = (f (m.setWriter Sink.mem)).2.flv.out ∧
      ∀ k, m.flv.calls ≤ k → k < (f m).2.flv.calls → m.flv.plan k = none) ∧
    ((f (m.setWriter Sink.mem)).1 = .ok () → (f m).1 = .ok () ∨ (f m).1 = .err .writer)

theorem C15_flv_mux (m : Mixer) (h : MixerReached m) (p : Packet) (pts : UInt32) :
    PrefixOnFailure (fun m => ((m.mux p pts).1, (m.mux p pts).2.1)) m := by
  obtain ⟨t, hr⟩ := reached_remembers h
  obtain ⟨k1, k2, k3, k4⟩ := mux_eq pts ⟨m.muxer, p, m.flv⟩ hr.good
  obtain ⟨l1, l2, l3, l4⟩ := mux_eq pts ⟨m.muxer, p, Sink.mem⟩ hr.good
  unfold PrefixOnFailure
  simp only [mixer_mux_eq, show (m.setWriter Sink.mem).muxer = m.muxer from rfl, show (m.setWriter Sink.mem).flv = Sink.mem from rfl]
  cases hp : prep p with
  | err e => rw [k1 e hp, l1 e hp]; exact ⟨[], by simp, List.nil_prefix, by simp, by simp⟩
  | panic => rw [k2 hp, l2 hp]; exact ⟨[], by simp, List.nil_prefix, by simp, by simp⟩
  | diverge => rw [k3 hp, l3 hp]; exact ⟨[], by simp, List.nil_prefix, by simp, by simp⟩
  | ok p' =>
    obtain ⟨m1, _, _, he⟩ := k4 p' hp
    obtain ⟨m2, _, _, he'⟩ := l4 p' hp
    simp only at he he'
    rw [he, he', runChunks_reliable _ _ Sink.mem_reliable]
    generalize chunks (UInt32.ofNat (tagType p.type)) pts p'.data = cs
    obtain ⟨_, q, q', r2, r3, r4⟩ := runChunks_any cs m.flv
    refine ⟨q, r3, ?_, fun ho => ⟨?_, fun k => runChunks_ok_calls cs m.flv ho k⟩, fun _ => ?_⟩
    · simp only [show Sink.mem.out = [] from rfl, List.nil_append, r2]; exact List.prefix_append _ _
    · rcases r4 with ⟨_, rfl⟩ | r4
      · simp [show Sink.mem.out = [] from rfl, r2]
      · rw [r4] at ho; exact absurd ho (by simp)
    · rcases r4 with ⟨r4, _⟩ | r4
      · exact .inl r4
      · exact .inr r4

theorem C15_flv_header (m : Mixer) (h : MixerReached m) : PrefixOnFailure Mixer.setFlvHeader m := by
  obtain ⟨t, hr⟩ := reached_remembers h
  have hr' : Remembers (m.setWriter Sink.mem) t := ⟨hr.good, hr.hdr, hr.types, hr.script, hr.avc, hr.aac, hr.fits⟩
  unfold PrefixOnFailure
  rw [setFlvHeader_eq m t hr, setFlvHeader_eq _ t hr', runChunks_reliable _ _ (show (m.setWriter Sink.mem).flv.Reliable from Sink.mem_reliable)]
  simp only [show (m.setWriter Sink.mem).flv = Sink.mem from rfl, show Sink.mem.out = [] from rfl, List.nil_append]
  generalize hdrChunks t = cs
  obtain ⟨_, q, q', r2, r3, r4⟩ := runChunks_any cs m.flv
  refine ⟨q, r3, ?_, fun ho => ⟨?_, fun k => runChunks_ok_calls cs m.flv ho k⟩, fun _ => ?_⟩
  · simp only [r2]; exact List.prefix_append _ _
  · rcases r4 with ⟨_, rfl⟩ | r4
    · simp [r2]
    · rw [r4] at ho; exact absurd ho (by simp)
  · rcases r4 with ⟨r4, _⟩ | r4
    · exact .inl r4
    · exact .inr r4

/-- The second `Write` of a tag fails after two bytes. -/
example : ((Mixer.new { out := [], plan := fun k => if k = 1 then some 2 else none }).mux { type := 1, data := [0xaf, 1, 7] } 0).1 = .err .writer ∧
    ((Mixer.new { out := [], plan := fun k => if k = 1 then some 2 else none }).mux { type := 1, data := [0xaf, 1, 7] } 0).2.1.flv.out =
      [8, 0, 0, 3, 0, 0, 0, 0, 0, 0, 0, 0xaf, 1] := by decide +kernel

/-! ## C16 -/

/-- C16 (partial): below 2^24 bytes a reader gets the data back.  Missing: 2^24 bytes and more
(`C16_flv_large_refuted`). -/
theorem C16_flv_length_partial (p : Packet) (pts : UInt32) (ht : p.type = 0 ∨ p.type = 1) (hl : p.data.length < 2 ^ 24) :
    readTag ((Mixer.new Sink.mem).mux p pts).2.1.flv.out = some (⟨if p.type = 0 then 9 else 8, pts.toNat, p.data⟩, []) := by
  obtain ⟨m', h1, h2⟩ := C11_flv_tag (Mixer.new Sink.mem) ⟨Sink.mem, [], by simp, rfl⟩ (fun _ => rfl) p pts hl ht
  rw [h1]
  simp only
  rw [h2, show (Mixer.new Sink.mem).flv.out = [] from rfl, List.nil_append]
  have := readTag_bytes ⟨if p.type = 0 then 9 else 8, pts.toNat, p.data⟩ ⟨by simp only; split <;> omega, pts.toNat_lt, hl⟩ []
  rwa [List.append_nil] at this

theorem C16_length_field (p : Packet) (pts : UInt32) (ht : p.type = 0 ∨ p.type = 1) :
    ((Mixer.new Sink.mem).mux p pts).1 = .ok () ∧
    nat ((((Mixer.new Sink.mem).mux p pts).2.1.flv.out.drop 1).take 3) = p.data.length % 2 ^ 24 := by
  have hp : prep p = .ok p := by unfold prep; rw [if_pos ht]
  obtain ⟨m', _, _, he⟩ := (mux_eq pts ⟨Muxer.new, p, Sink.mem⟩ good_new).2.2.2 p hp
  simp only at he
  rw [runChunks_reliable _ _ Sink.mem_reliable] at he
  rw [mixer_mux_eq]
  rw [show (Mixer.new Sink.mem).muxer = Muxer.new from rfl, show (Mixer.new Sink.mem).flv = Sink.mem from rfl, he]
  refine ⟨rfl, ?_⟩
  simp only [show Sink.mem.out = [] from rfl, List.nil_append, chunks, List.flatten_cons, List.append_assoc, be32_beN]
  have hx : ((UInt32.ofNat (tagType p.type) <<< 24) + (UInt32.ofNat p.data.length &&& 0x00ffffff)).toNat % 2 ^ 24 = p.data.length % 2 ^ 24 := by
    rw [UInt32.toNat_add, UInt32.toNat_and, UInt32.toNat_shiftLeft, UInt32.toNat_ofNat', UInt32.toNat_ofNat']
    have : p.data.length % 2 ^ 32 &&& (0x00ffffff : UInt32).toNat = p.data.length % 2 ^ 24 := by
      refine (Nat.and_two_pow_sub_one_eq_mod _ 24).trans ?_
      omega
    rw [this]
    simp [Nat.shiftLeft_eq]
  generalize ((UInt32.ofNat (tagType p.type) <<< 24) + (UInt32.ofNat p.data.length &&& 0x00ffffff)).toNat = x at hx ⊢
  have h3 : ∀ r, (((beN 4 x) ++ r).drop 1).take 3 = beN 3 x := by intro r; simp [beN]
  rw [h3, nat_beN]
  exact hx

/-- C16 fails for every payload of 2^24 bytes or more: `Mux` succeeds, but the length field is too small and
no reader that trusts it gets the data back. -/
theorem C16_flv_large_refuted (p : Packet) (pts : UInt32) (ht : p.type = 0 ∨ p.type = 1) (hl : 2 ^ 24 ≤ p.data.length) :
    ((Mixer.new Sink.mem).mux p pts).1 = .ok () ∧
    nat ((((Mixer.new Sink.mem).mux p pts).2.1.flv.out.drop 1).take 3) < p.data.length ∧
    ∀ t r, readTag ((Mixer.new Sink.mem).mux p pts).2.1.flv.out = some (t, r) → t.payload ≠ p.data := by
  obtain ⟨h1, h2⟩ := C16_length_field p pts ht
  generalize ((Mixer.new Sink.mem).mux p pts).2.1.flv.out = out at *
  refine ⟨h1, by rw [h2]; omega, fun t r h hc => ?_⟩
  unfold readTag at h
  simp only [h2] at h
  split at h
  · exact absurd h (by simp)
  · split at h
    · exact absurd h (by simp)
    · split at h
      · exact absurd h (by simp)
      · have hh := congrArg Prod.fst (Option.some.inj h)
        simp only at hh
        rw [← hh] at hc
        simp only at hc
        have := congrArg List.length hc
        rw [List.length_take] at this
        omega

example : ∃ p : Packet, p.type = 0 ∧ 2 ^ 24 ≤ p.data.length :=
  ⟨{ type := 0, data := List.replicate (2 ^ 24) 0 }, rfl, Nat.le_of_eq List.length_replicate.symm⟩

end Flv
end Verif.Props
