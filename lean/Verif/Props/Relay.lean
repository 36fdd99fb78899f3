import Verif.Lemmas.Relay
/-!
# Properties C129–C131: other video codecs, ends of sequence, and a relay from publisher to late subscribers

The relay and what its subscribers should receive are specified in `Verif/Spec/Relay.lean`.
-/
namespace Verif.Props
open Verif Verif.Flv Verif.Gop Verif.Spec.Gop Verif.Spec.Flv Verif.Spec.Relay Verif.Relay

/-! ## C129 -/

/-- The media of a video tag (Adobe FLV specification 10.1, E.4.3.1): one byte of frame type and codec comes
first; only codec 7, AVC, has four more bytes of header. -/
def videoMedia : Bytes → Bytes
  | [] => []
  | b0 :: rest => if b0.toNat % 16 = 7 then rest.drop 4 else rest

/-- C129 (partial): AVC key and inter frames, and tags of other codecs that are neither key nor inter frames,
of at least five bytes: the media is what the format says and no tag of another codec is taken for an AVC
sequence header.  Missing: key and inter frames of other codecs (`C129_other_codecs_refuted`,
`C129_sequence_header_refuted`) and tags of less than five bytes (`C129_short_refuted`). -/
theorem C129_video_codecs_partial (p : Packet) (ht : p.type = 0) (hl : 5 ≤ p.data.length) (b0 : UInt8) (rest : Bytes)
    (hd : p.data = b0 :: rest)
    (hc : b0.toNat % 16 = 7 ∧ (b0.toNat / 16 = 1 ∨ b0.toNat / 16 = 2) ∨ b0.toNat % 16 ≠ 7 ∧ b0.toNat / 16 ≠ 1 ∧ b0.toNat / 16 ≠ 2) :
    ∃ h v, demux p = (.ok (), { p with header := some h, media := videoMedia p.data }) ∧ h.video = some v ∧
      (v.isCodecAvc = true ↔ b0.toNat % 16 = 7) ∧ (v.isSeqHdr = true → b0.toNat % 16 = 7) := by
  obtain ⟨b1, b2, b3, b4, r, rfl⟩ : ∃ b1 b2 b3 b4 r, rest = b1 :: b2 :: b3 :: b4 :: r := by
    rw [hd] at hl
    rcases rest with _ | ⟨b1, _ | ⟨b2, _ | ⟨b3, _ | ⟨b4, r⟩⟩⟩⟩
    · simp at hl
    · simp at hl
    · simp at hl
    · simp at hl
    · exact ⟨b1, b2, b3, b4, r, rfl⟩
  rcases hc with ⟨h7, hf⟩ | ⟨h7, h1, h2⟩
  · obtain ⟨h, e1, e2⟩ := C07_flv_video_header p ht b0 b1 b2 b3 b4 r hd hf
    refine ⟨h, _, ?_, e2, by simp [videoAnswers], fun _ => h7⟩
    rw [e1, hd]
    simp [videoMedia, h7]
  · obtain ⟨h, e1, e2⟩ := C07_flv_video_other p ht b0 b1 b2 b3 b4 r hd (by omega)
    refine ⟨h, _, ?_, e2, by simp [videoAnswers], ?_⟩
    · rw [e1, hd]
      simp [videoMedia, h7]
    · simp [videoAnswers, h1]

/-- C129 fails for every key or inter frame of another codec with at least five bytes: four bytes of media are
lost. -/
theorem C129_other_codecs_refuted (p : Packet) (ht : p.type = 0) (hl : 5 ≤ p.data.length) (b0 : UInt8) (rest : Bytes)
    (hd : p.data = b0 :: rest) (hc : b0.toNat % 16 ≠ 7) (hf : b0.toNat / 16 = 1 ∨ b0.toNat / 16 = 2) :
    (demux p).1 = .ok () ∧ (demux p).2.media = (videoMedia p.data).drop 4 ∧ (demux p).2.media ≠ videoMedia p.data := by
  obtain ⟨b1, b2, b3, b4, r, rfl⟩ : ∃ b1 b2 b3 b4 r, rest = b1 :: b2 :: b3 :: b4 :: r := by
    rw [hd] at hl
    rcases rest with _ | ⟨b1, _ | ⟨b2, _ | ⟨b3, _ | ⟨b4, r⟩⟩⟩⟩
    · simp at hl
    · simp at hl
    · simp at hl
    · simp at hl
    · exact ⟨b1, b2, b3, b4, r, rfl⟩
  obtain ⟨h, e1, e2⟩ := C07_flv_video_header p ht b0 b1 b2 b3 b4 r hd hf
  rw [e1, hd]
  refine ⟨rfl, by simp [videoMedia, hc], ?_⟩
  simp only [videoMedia, if_neg hc]
  intro h
  have := congrArg List.length h
  simp only [List.length_cons] at this
  omega

/-- C129 fails for every key frame of another codec whose media begins with a zero byte: it is taken for a
sequence header, so the cache stores it as the video header, in place of the real one, and not as a picture. -/
theorem C129_sequence_header_refuted {P : Type} (p : Packet) (ht : p.type = 0) (hl : 5 ≤ p.data.length) (b0 : UInt8) (rest : Bytes)
    (hd : p.data = b0 :: 0 :: rest) (hc : b0.toNat % 16 ≠ 7) (hf : b0.toNat / 16 = 1) (hist : History P) (r : P) :
    (∃ h v, (demux p).2.header = some h ∧ h.video = some v ∧ v.isSeqHdr = true ∧ v.isCodecAvc = false) ∧
    last .videoHdr (hist ++ [(r, (demux p).2)]) = [r] ∧ frames (hist ++ [(r, (demux p).2)]) = frames hist := by
  obtain ⟨b2, b3, b4, r', rfl⟩ : ∃ b2 b3 b4 r', rest = b2 :: b3 :: b4 :: r' := by
    rw [hd] at hl
    rcases rest with _ | ⟨b2, _ | ⟨b3, _ | ⟨b4, r⟩⟩⟩
    · simp at hl
    · simp at hl
    · simp at hl
    · exact ⟨b2, b3, b4, r, rfl⟩
  obtain ⟨h, e1, e2⟩ := C07_flv_video_header p ht b0 0 b2 b3 b4 r' hd (.inl hf)
  have hrole : role (demux p).2 = .videoHdr := by
    rw [e1]
    rw [role_video { p with header := some h, media := r' } h _ ht rfl e2]
    simp [videoAnswers, hf]
  refine ⟨⟨h, _, by rw [e1], e2, by simp [videoAnswers, hf], by simp [videoAnswers, hc]⟩, ?_, ?_⟩
  · simp [last, List.filter_append, hrole]
  · simp [frames, hrole]

/-- C129 fails for every video tag of one to four bytes, which is complete for codecs other than AVC. -/
theorem C129_short_refuted (p : Packet) (ht : p.type = 0) (hl : p.data.length < 5) : ∃ e, demux p = (.err e, p) :=
  (C09_flv_demux_total p).1 (.inl ⟨ht, hl⟩)

/-- A key frame of codec 2 (Sorenson H.263) begins with the bytes 0, 0, 0x84: it loses four bytes and is taken for
a sequence header. -/
example : (demux { type := 0, data := [0x12, 0, 0, 0x84, 1, 2, 3] }).2.media = [2, 3] ∧
    videoMedia [0x12, 0, 0, 0x84, 1, 2, 3] = [0, 0, 0x84, 1, 2, 3] := by decide
example : (demux { type := 0, data := [0x12, 0, 0, 0x84, 1, 2, 3] }).2.media ≠ videoMedia [0x12, 0, 0, 0x84, 1, 2, 3] :=
  (C129_other_codecs_refuted { type := 0, data := [0x12, 0, 0, 0x84, 1, 2, 3] } rfl (by decide) 0x12 [0, 0, 0x84, 1, 2, 3] rfl
    (by decide) (by decide)).2.2
example : last .videoHdr (sampleHistory ++ [(10, (demux { type := 0, data := [0x12, 0, 0, 0x84, 1, 2, 3] }).2)]) = [10] :=
  (C129_sequence_header_refuted { type := 0, data := [0x12, 0, 0, 0x84, 1, 2, 3] } rfl (by decide) 0x12 [0, 0x84, 1, 2, 3] rfl
    (by decide) (by decide) sampleHistory 10).2.1
/-- The two-byte video command "start seek". -/
example : ∃ e, demux { type := 0, data := [0x52, 0] } = (.err e, { type := 0, data := [0x52, 0] }) :=
  C129_short_refuted _ rfl (by decide)
example : ∃ h v, demux { type := 0, data := [0x17, 0, 0, 0, 0, 1, 66] } = (.ok (), { ({ type := 0, data := [0x17, 0, 0, 0, 0, 1, 66] } : Packet)
      with header := some h, media := [1, 66] }) ∧ h.video = some v ∧ (v.isCodecAvc = true ↔ (0x17 : UInt8).toNat % 16 = 7) ∧
      (v.isSeqHdr = true → (0x17 : UInt8).toNat % 16 = 7) :=
  C129_video_codecs_partial { type := 0, data := [0x17, 0, 0, 0, 0, 1, 66] } rfl (by decide) 0x17 [0, 0, 0, 0, 1, 66] rfl (by decide)

/-! ## C130 -/

/-- An AVC end-of-sequence tag answers that it is one, and the cache takes it for a key frame. -/
theorem endOfSequence (p : Packet) (ht : p.type = 0) (b0 b2 b3 b4 : UInt8) (rest : Bytes)
    (hd : p.data = b0 :: 2 :: b2 :: b3 :: b4 :: rest) (hf : b0.toNat / 16 = 1) :
    (∃ h v, (demux p).2.header = some h ∧ h.video = some v ∧ v.isEndOfSeq = true) ∧ role (demux p).2 = .key := by
  obtain ⟨h, e1, e2⟩ := C07_flv_video_header p ht b0 2 b2 b3 b4 rest hd (.inl hf)
  refine ⟨⟨h, _, by rw [e1], e2, by simp [videoAnswers, hf]⟩, ?_⟩
  rw [e1]
  rw [role_video { p with header := some h, media := rest } h _ ht rfl e2]
  simp [videoAnswers, hf]

theorem frames_snoc_key {P : Type} (hist : History P) (r : P) (p : Packet) (h : role p = .key) :
    frames (hist ++ [(r, p)]) = frames hist ++ [(true, r)] := by simp [frames, h]

/-- C130 (partial): while fewer groups than the capacity have been written, an end-of-sequence tag displaces
none of them; it is replayed as a group of its own.  Missing: a full cache
(`C130_end_of_sequence_refuted`). -/
theorem C130_end_of_sequence_partial {P : Type} (n : Nat) (c : Cache P) (hc : newCache n = .ok c) (hist : History P) (r : P) (p : Packet)
    (ht : p.type = 0) (b0 b2 b3 b4 : UInt8) (rest : Bytes) (hd : p.data = b0 :: 2 :: b2 :: b3 :: b4 :: rest) (hf : b0.toNat / 16 = 1)
    (hn : (groups (frames hist)).length < n) (w : PSink P) (hw : ∀ k, w.plan k = false) :
    (((Gop.run c (hist ++ [(r, (demux p).2)])).sendTo w).2.out = ((Gop.run c hist).sendTo w).2.out ++ [r]) := by
  obtain ⟨_, hr⟩ := endOfSequence p ht b0 b2 b3 b4 rest hd hf
  rw [C02_replay n c hc _ w hw, C02_replay n c hc _ w hw]
  have hl : ∀ x : Role, x ≠ .key → last x (hist ++ [(r, (demux p).2)]) = last x hist := by
    intro x hx
    have hx' : ¬ Role.key = x := fun h => hx h.symm
    simp [last, List.filter_append, List.filter_cons, hr, hx']
  simp only [replay, kept, hl .metadata (by simp), hl .videoHdr (by simp), hl .audioHdr (by simp), frames_snoc_key _ _ _ hr,
    groups_snoc_key, newest, List.map_append, List.length_append, List.length_map, List.map_cons, List.map_nil, List.length_cons,
    List.length_nil]
  rw [show (groups (frames hist)).length + (0 + 1) - n = 0 by omega, show (groups (frames hist)).length - n = 0 by omega]
  simp

/-- C130 fails whenever the cache is full: an end-of-sequence tag takes the place of the oldest group, so a
subscriber who joins afterwards receives one group of pictures less. -/
theorem C130_end_of_sequence_refuted {P : Type} (n : Nat) (c : Cache P) (hc : newCache n = .ok c) (hist : History P) (r : P) (p : Packet)
    (ht : p.type = 0) (b0 b2 b3 b4 : UInt8) (rest : Bytes) (hd : p.data = b0 :: 2 :: b2 :: b3 :: b4 :: rest) (hf : b0.toNat / 16 = 1)
    (h0 : 0 < n) (hn : n ≤ (groups (frames hist)).length) (w : PSink P) (hw : ∀ k, w.plan k = false) :
    ∃ hdrs oldest gs, oldest ≠ [] ∧
      ((Gop.run c hist).sendTo w).2.out = w.out ++ hdrs ++ oldest ++ gs ∧
      ((Gop.run c (hist ++ [(r, (demux p).2)])).sendTo w).2.out = w.out ++ hdrs ++ gs ++ [r] := by
  obtain ⟨_, hr⟩ := endOfSequence p ht b0 b2 b3 b4 rest hd hf
  have hl : ∀ x : Role, x ≠ .key → last x (hist ++ [(r, (demux p).2)]) = last x hist := by
    intro x hx
    have hx' : ¬ Role.key = x := fun h => hx h.symm
    simp [last, List.filter_append, List.filter_cons, hr, hx']
  have hlt : (groups (frames hist)).length - n < (groups (frames hist)).length := by omega
  refine ⟨last .metadata hist ++ last .videoHdr hist ++ last .audioHdr hist,
    (((groups (frames hist))[(groups (frames hist)).length - n]).take 1025),
    ((((groups (frames hist)).map (List.take 1025)).drop ((groups (frames hist)).length - n + 1)).flatten), ?_, ?_, ?_⟩
  · have hne : ∀ (l : List (Bool × P)), ∀ g ∈ groups l, g ≠ [] := by
      intro l
      induction l with
      | nil => simp [groups]
      | cons x l ih =>
        obtain ⟨b, q⟩ := x
        cases b
        · simpa [groups] using ih
        · intro g hg
          simp only [groups, List.mem_cons] at hg
          rcases hg with rfl | hg
          · simp
          · exact ih g hg
    have := hne _ _ (List.getElem_mem hlt)
    simpa using this
  · rw [C02_replay n c hc _ w hw]
    simp only [replay, kept, newest, List.length_map]
    rw [List.drop_eq_getElem_cons (by simpa using hlt)]
    simp
  · rw [C02_replay n c hc _ w hw]
    simp only [replay, kept, hl .metadata (by simp), hl .videoHdr (by simp), hl .audioHdr (by simp), frames_snoc_key _ _ _ hr,
      groups_snoc_key, newest, List.map_append, List.length_append, List.length_map, List.map_cons, List.map_nil, List.length_cons,
      List.length_nil]
    rw [show (groups (frames hist)).length + (0 + 1) - n = (groups (frames hist)).length - n + 1 by omega,
      List.drop_append_of_le_length (by rw [List.length_map]; omega)]
    simp

/-- With capacity 1 the pictures 7 and 8 are gone: nothing but headers and the end of sequence is left. -/
example : ∃ c : Cache Nat, newCache 1 = .ok c ∧ ((Gop.run c sampleHistory).sendTo { out := [] }).2.out = [0, 1, 2, 7, 8] ∧
    ((Gop.run c (sampleHistory ++ [(10, (demux { type := 0, data := [0x17, 2, 0, 0, 0] }).2)])).sendTo { out := [] }).2.out = [0, 1, 2, 10] :=
  ⟨_, rfl, by decide, by decide⟩
example : ∃ c : Cache Nat, newCache 1 = .ok c ∧ ∃ hdrs oldest gs, oldest ≠ [] ∧
      ((Gop.run c sampleHistory).sendTo { out := [] }).2.out = [] ++ hdrs ++ oldest ++ gs ∧
      ((Gop.run c (sampleHistory ++ [(10, (demux { type := 0, data := [0x17, 2, 0, 0, 0] }).2)])).sendTo { out := [] }).2.out = [] ++ hdrs ++ gs ++ [10] :=
  ⟨_, rfl, C130_end_of_sequence_refuted 1 _ rfl sampleHistory 10 { type := 0, data := [0x17, 2, 0, 0, 0] } rfl 0x17 0 0 0 [] rfl (by decide)
    (by decide) (by decide) { out := [] } (fun _ => rfl)⟩
example : ∃ c : Cache Nat, newCache 4 = .ok c ∧
    ((Gop.run c (sampleHistory ++ [(10, (demux { type := 0, data := [0x17, 2, 0, 0, 0] }).2)])).sendTo { out := [] }).2.out =
      ((Gop.run c sampleHistory).sendTo { out := [] }).2.out ++ [10] :=
  ⟨_, rfl, C130_end_of_sequence_partial 4 _ rfl sampleHistory 10 { type := 0, data := [0x17, 2, 0, 0, 0] } rfl 0x17 0 0 0 [] rfl (by decide)
    (by decide) { out := [] } (fun _ => rfl)⟩

/-! ## C131 -/

/-- C131: whatever valid messages a publisher has sent and however many subscribers have come in between, the
next subscriber receives an FLV file with exactly the latest metadata (without "@setDataFrame"), video header
and audio header and the newest `n` groups of pictures, each with the bytes and timestamp the publisher sent. -/
theorem C131_relay (n : Nat) (c : Cache Nat) (hc : newCache n = .ok c) (es : List Event) (hv : ∀ t ∈ messages es, Valid t) :
    ((Server.mk [] c).run es).subscribe.1 = .ok () ∧
    readFile ((Server.mk [] c).run es).subscribe.2.1 = some (false, false, file n (messages es)) := by
  have h0 : Inv c [] (Server.mk [] c) := ⟨rfl, by simp, rfl⟩
  have h := inv_run n c hc es [] (by simpa using hv) _ h0
  rw [List.nil_append] at h
  have := subscribe_ok n c hc (messages es) hv _ h
  exact ⟨this.1, this.2.1⟩

/-- Metadata with "@setDataFrame", an AVC header, an AAC header, two groups with sound in between and a subscriber
before the second group. -/
def sampleEvents : List Event :=
  [.publish ⟨18, 0, string0 frameName ++ (string0 [111, 110] ++ [3, 0, 0, 9])⟩, .publish ⟨9, 0, [0x17, 0, 0, 0, 0, 1, 66]⟩,
   .publish ⟨8, 0, [0xaf, 0, 0x12, 0x10]⟩, .publish ⟨9, 0, [0x17, 1, 0, 0, 0, 101]⟩, .publish ⟨8, 23, [0xaf, 1, 33]⟩, .subscribe,
   .publish ⟨9, 40, [0x17, 1, 0, 0, 0, 102]⟩, .publish ⟨9, 80, [0x27, 1, 0, 0, 40, 103]⟩]

example : ∀ t ∈ messages sampleEvents, Valid t := by
  intro t ht
  simp only [messages, sampleEvents, List.mem_cons, List.not_mem_nil, or_false] at ht
  rcases ht with rfl | rfl | rfl | rfl | rfl | rfl | rfl
  · exact .frame 0 _ _ (by decide) (by decide) (by decide) (by decide) (by decide)
  · exact .video _ _ (by decide) (by decide) (by decide)
  · exact .audio _ _ _ _ (by decide) (by decide) (by decide)
  · exact .video _ _ (by decide) (by decide) (by decide)
  · exact .audio _ _ _ _ (by decide) (by decide) (by decide)
  · exact .video _ _ (by decide) (by decide) (by decide)
  · exact .video _ _ (by decide) (by decide) (by decide)

example : file 1 (messages sampleEvents) =
    [⟨18, 0, string0 [111, 110] ++ [3, 0, 0, 9]⟩, ⟨9, 0, [0x17, 0, 0, 0, 0, 1, 66]⟩, ⟨8, 0, [0xaf, 0, 0x12, 0x10]⟩,
     ⟨9, 40, [0x17, 1, 0, 0, 0, 102]⟩, ⟨9, 80, [0x27, 1, 0, 0, 40, 103]⟩] := by decide +kernel

end Verif.Props
