import Verif.Lemmas.RelayTs
/-!
# C137: viewers of a transport stream behind the cache
-/
namespace Verif.Props
open Verif Verif.Relay Verif.Spec.Flv Verif.Spec.Ts Verif.Spec.Es Verif.Spec.Relay

/-- C137 (partial): whatever valid messages have been sent and whoever has come in between, a viewer who joins gets from
the transport stream exactly the newest `n` groups of pictures and then every frame sent after they joined, audio and
video, in order, with its time, and each IDR picture with the parameter sets; the tables in front of the first frame name
the streams whose headers are known by then.  The other viewers and FLV subscribers, who share the packets, change
nothing about it.

Full claim: the same for the messages left out of `Stream` (C10, C47, C48, C56, C62, C63). -/
theorem C137_relay_partial (n : Nat) (c : Gop.Cache Nat) (hc : Gop.newCache n = .ok c) (before after : List HubEvent)
    (hv : ∀ t ∈ sent before ++ sent after, Valid t) (vs : List VideoUnit) (as : List AudioUnit)
    (h : Stream none none (file n (sent before) ++ sent after) vs as) :
    ∃ x, ((Hub.run ⟨⟨[], c⟩, []⟩ before).join.run after).viewers[(Hub.run ⟨⟨[], c⟩, []⟩ before).viewers.length]? = some x ∧
      Delivered x.mixer.ts.out vs as ∧
      (vs ≠ [] ∨ as ≠ [] → tune x.mixer.ts.out = some (streams (file n (sent before) ++ sent after))) := by
  have h0 : Inv c [] (Hub.mk ⟨[], c⟩ []).server := ⟨rfl, by simp, rfl⟩
  obtain ⟨h1, -⟩ := hub_run n c hc before [] (by intro t ht; exact hv t (by simp at ht; simp [ht])) _ h0
  rw [List.nil_append] at h1
  obtain ⟨h2, ps, p1, p2⟩ := hub_join n c hc (sent before) (fun t ht => hv t (by simp [ht])) _ h1
  obtain ⟨-, h3⟩ := hub_run n c hc after (sent before) hv _ h2
  obtain ⟨qs, q1, q2⟩ := h3 (Hub.run ⟨⟨[], c⟩, []⟩ before).viewers.length (watch { mixer := Ts.Mixer.new Sink.mem } ps) (by
    rw [p2, List.getElem?_append_right (Nat.le_refl _)]; simp)
  have hw : watch (watch { mixer := Ts.Mixer.new Sink.mem } ps) qs = watch { mixer := Ts.Mixer.new Sink.mem } (ps ++ qs) := by
    simp [watch, List.foldl_append]
  rw [hw] at q2
  rw [file_raw] at h ⊢
  rw [streams_delivered]
  obtain ⟨o1, o2⟩ := watch_out (stream_delivered _ h) _ (p1.append q1)
  exact ⟨_, q2, o1, o2⟩

/-- A viewer who is given a small key frame. -/
theorem small_video {x : Viewer} {s c vs as v a} (h : VInv x s c vs as v a) {time : Nat} {b0 b2 b3 b4 : UInt8} {nals : List Bytes}
    (hb : b0.toNat / 16 = 1) (hb7 : b0.toNat % 16 = 7) (hb2 : b2.toNat < 128)
    (hn : ∀ n ∈ nals, Supported n) (hne : nals ≠ []) (h1 : ∀ n, nals.head? = some n → n.length ≠ 1)
    (hlen : (if b2.toNat * 65536 + b3.toNat * 256 + b4.toNat = 0 then 14 else 19) + (accessUnit (annexB (sets s)) nals).length < 176)
    {p : Packet} (hp : Holds ⟨9, time, b0 :: 1 :: b2 :: b3 :: b4 :: avcc nals⟩ p) :
    receive 0x100 (x.write p).1.mixer.ts.out = none := by
  have ht : p.type = 0 := by rw [hp.type]; rfl
  have hd := holds_data hp (.inl rfl)
  simp only at hd
  have hc := composition_eq p ht b0 b2 b3 b4 _ hd (.inl hb) hb2
  obtain ⟨vh, ah, h0, hcfg, hk⟩ := avc_demux p ht b0 b2 b3 b4 _ hd (.inl hb) hb7
  generalize hq : (Flv.demux p).2 = q at hc
  have hqe : q = { p with header := some ⟨some vh, some ah⟩, media := avcc nals } := by rw [← hq, h0]
  have hqt : q.type = 0 := by rw [hqe]; exact ht
  have hv : saysVideoHdr q = false := by simp [saysVideoHdr, hqe, hcfg.2]
  have ha : saysAudioHdr q = false := by simp [saysAudioHdr, hqt]
  obtain ⟨hbg, hop⟩ := VInv.begin h
  have hw : (x.write p).1 = { x.begin with mixer := ((x.begin.mixer.update q q.timeStamp (composition q)).2.mux q).2.1 } := by
    unfold Viewer.write
    simp only [hq, hqt, hv, ha]
    rfl
  rw [hw, hc]
  rcases hbg.state with ⟨g, -⟩ | ⟨-, y, k1, k2, k3, k4, k5, k6⟩
  · rw [hop] at g; simp at g
  have := b3.toNat_lt; have := b4.toNat_lt
  obtain ⟨q', e1, -, e2⟩ := C109_small_key_frame_refuted k1 k3 (Live.after_tables k5 k6) hbg.hist p ht b0 b2 b3 b4 nals hd hb hb7 hn hne h1 q.timeStamp
    (UInt32.ofNat (b2.toNat * 65536 + b3.toNat * 256 + b4.toNat)) _ rfl
  have : q' = q := by rw [← hq, e1]
  subst this
  obtain ⟨out, o1, o2⟩ := e2 (by
    rw [records_sets]
    have e : 90 * (UInt32.ofNat (b2.toNat * 65536 + b3.toNat * 256 + b4.toNat)).toNat % 2 ^ 32 = 90 * (b2.toNat * 65536 + b3.toNat * 256 + b4.toNat) := by
      simp; omega
    rw [e]
    split <;> rename_i hz
    · rw [if_pos (by omega)] at hlen; exact hlen
    · rw [if_neg (by omega)] at hlen; exact hlen)
  rw [o1, k2, List.nil_append]
  exact o2

theorem known_delivered {ts us : List TagRec} {s : Option (Bytes × Bytes)} (h : Announces (ts ++ us) s) : Announces (ts.map delivered ++ us) s := by
  obtain ⟨time, b0, b2, b3, b4, m, sps, pps, h1, h2⟩ := h
  refine ⟨time, b0, b2, b3, b4, m, sps, pps, ?_, h2⟩
  rw [List.mem_append] at h1 ⊢
  refine h1.imp_left fun h => List.mem_map.2 ⟨_, h, ?_⟩
  unfold delivered
  rw [if_neg (by rintro ⟨h, -⟩; simp at h)]

/-- The code violates the claim whenever the publisher sends a key frame whose PES packet has less than 176 bytes (with the parameter
sets announced so far): from then on a viewer cannot read the video. -/
theorem C137_small_key_frame_refuted (n : Nat) (c : Gop.Cache Nat) (hc : Gop.newCache n = .ok c) (before after : List HubEvent)
    (hv : ∀ t ∈ sent before ++ sent after, Valid t) (vs : List VideoUnit) (as : List AudioUnit)
    (h : Stream none none (file n (sent before) ++ sent after) vs as)
    (time : Nat) (b0 b2 b3 b4 : UInt8) (nals : List Bytes) (hb : b0.toNat / 16 = 1) (hb7 : b0.toNat % 16 = 7) (hb2 : b2.toNat < 128)
    (hn : ∀ n ∈ nals, Supported n) (hne : nals ≠ []) (h1 : ∀ n, nals.head? = some n → n.length ≠ 1)
    (hlen : ∀ s, s = none ∨ Announces (file n (sent before) ++ sent after) s →
      (if b2.toNat * 65536 + b3.toNat * 256 + b4.toNat = 0 then 14 else 19) + (accessUnit (annexB (sets s)) nals).length < 176) :
    ∃ x, (((Hub.run ⟨⟨[], c⟩, []⟩ before).join.run after).publish ⟨9, time, b0 :: 1 :: b2 :: b3 :: b4 :: avcc nals⟩).viewers[(Hub.run ⟨⟨[], c⟩, []⟩ before).viewers.length]?
        = some x ∧ receive 0x100 x.mixer.ts.out = none := by
  have h0 : Inv c [] (Hub.mk ⟨[], c⟩ []).server := ⟨rfl, by simp, rfl⟩
  obtain ⟨h1', -⟩ := hub_run n c hc before [] (by intro t ht; exact hv t (by simp at ht; simp [ht])) _ h0
  rw [List.nil_append] at h1'
  obtain ⟨h2, ps, p1, p2⟩ := hub_join n c hc (sent before) (fun t ht => hv t (by simp [ht])) _ h1'
  obtain ⟨h4, h3⟩ := hub_run n c hc after (sent before) hv _ h2
  obtain ⟨qs, q1, q2⟩ := h3 (Hub.run ⟨⟨[], c⟩, []⟩ before).viewers.length (watch { mixer := Ts.Mixer.new Sink.mem } ps) (by
    rw [p2, List.getElem?_append_right (Nat.le_refl _)]; simp)
  have hw : watch (watch { mixer := Ts.Mixer.new Sink.mem } ps) qs = watch { mixer := Ts.Mixer.new Sink.mem } (ps ++ qs) := by
    simp [watch, List.foldl_append]
  rw [hw] at q2
  obtain ⟨-, -, h5⟩ := hub_publish c _ _ h4 ⟨9, time, b0 :: 1 :: b2 :: b3 :: b4 :: avcc nals⟩
  obtain ⟨q, g1, g2⟩ := h5 _ _ q2
  rw [file_raw] at h hlen
  obtain ⟨s', c', hk, k⟩ := stream_watch (stream_delivered _ h) _ (p1.append q1) _ [] [] false false VInv.new
  exact ⟨_, g2, small_video k hb hb7 hb2 hn hne h1 (hlen s' (hk.imp_right known_delivered)) g1⟩

/-- A key frame, 180 bytes. -/
def bigIdr : Bytes := 0x65 :: List.replicate 179 7

/-- Metadata, headers and a group with sound; an FLV subscriber and another viewer; a second group. -/
def hubBefore : List HubEvent :=
  [.publish ⟨18, 0, string0 frameName ++ (string0 [111, 110] ++ [3, 0, 0, 9])⟩,
   .publish ⟨9, 0, [0x17, 0, 0, 0, 0, 1, 100, 0, 31, 0xff, 0xe1, 0, 3, 0x67, 1, 2, 1, 0, 2, 0x68, 3]⟩,
   .publish ⟨8, 0, [0xaf, 0, 0x12, 0x10]⟩, .publish ⟨9, 0, 0x17 :: 1 :: 0 :: 0 :: 0 :: avcc [bigIdr]⟩, .publish ⟨8, 23, [0xaf, 1, 33]⟩,
   .subscribe, .join, .publish ⟨9, 40, 0x17 :: 1 :: 0 :: 0 :: 80 :: avcc [bigIdr]⟩]

/-- Another viewer, an inter frame and sound. -/
def hubAfter : List HubEvent :=
  [.join, .publish ⟨9, 80, 0x27 :: 1 :: 0 :: 0 :: 0 :: avcc [[0x41, 5, 6]]⟩, .publish ⟨8, 90, [0xaf, 1, 9, 8, 7]⟩]

example : ∀ t ∈ sent hubBefore ++ sent hubAfter, Valid t := by
  intro t ht
  simp only [sent, hubBefore, hubAfter, List.mem_append, List.mem_cons, List.not_mem_nil, or_false] at ht
  rcases ht with (rfl | rfl | rfl | rfl | rfl | rfl) | rfl | rfl
  · exact .frame 0 _ _ (by decide) (by decide) (by decide) (by decide) (by decide)
  · exact .video _ _ (by decide) (by decide) (by decide)
  · exact .audio _ _ _ _ (by decide) (by decide) (by decide)
  · exact .video _ _ (by decide) (by decide +kernel) (by decide +kernel)
  · exact .audio _ _ _ _ (by decide) (by decide) (by decide)
  · exact .video _ _ (by decide) (by decide +kernel) (by decide +kernel)
  · exact .video _ _ (by decide) (by decide) (by decide)
  · exact .audio _ _ _ _ (by decide) (by decide) (by decide)

/-- A viewer who joins in between gets the second key frame with the parameter sets, the inter frame and the sound. -/
example : Stream none none (file 1 (sent hubBefore) ++ sent hubAfter)
    [⟨10800, 3600, [0, 0, 0, 1, 9, 0xf0, 0, 0, 0, 1, 0x67, 1, 2, 0, 0, 0, 1, 0x68, 3, 0, 0, 0, 1] ++ bigIdr⟩,
     ⟨7200, 7200, [0, 0, 0, 1, 9, 0xf0, 0, 0, 0, 1, 0x41, 5, 6]⟩] [⟨90, 2, 4, 2, [9, 8, 7]⟩] := by
  have e : file 1 (sent hubBefore) ++ sent hubAfter =
      [⟨18, 0, string0 [111, 110] ++ [3, 0, 0, 9]⟩,
       ⟨9, 0, 0x17 :: 0 :: 0 :: 0 :: 0 :: [1, 100, 0, 31, 0xff, 0xe1, 0, 3, 0x67, 1, 2, 1, 0, 2, 0x68, 3]⟩,
       ⟨8, 0, 0xaf :: 0 :: (audioConfig 2 4 2 0 ++ [])⟩, ⟨9, 40, 0x17 :: 1 :: 0 :: 0 :: 80 :: avcc [bigIdr]⟩,
       ⟨9, 80, 0x27 :: 1 :: 0 :: 0 :: 0 :: avcc [[0x41, 5, 6]]⟩, ⟨8, 90, 0xaf :: 1 :: [9, 8, 7]⟩] := by decide +kernel
  rw [e]
  refine .script _ _ (.videoHdr _ _ _ _ _ _ [0x67, 1, 2] [0x68, 3] (by decide) (by decide)
    ⟨by simp, by decide, by simp, by decide, 1, 100, 0, 31, 0xff, 0xe1, 1, rfl⟩
    (.audioHdr _ _ 2 4 2 0 [] (by decide) (by decide) (by decide) (by decide) (by decide)
    (.video 40 _ _ _ _ [bigIdr] _ (by decide) (by decide) (by decide) (by decide) ?_ (by simp) (fun n hn => by cases hn; decide +kernel) (by decide +kernel) (by decide +kernel)
    (.video 80 _ _ _ _ [[0x41, 5, 6]] _ (by decide) (by decide) (by decide) (by decide) ?_ (by simp) (by simp) (by decide +kernel) (by decide)
    (.audio 90 _ [9, 8, 7] (by decide) (by decide) (by simp) (by decide) (.done _ _))))))
  · intro n hn
    simp only [List.mem_cons, List.not_mem_nil, or_false] at hn
    subst hn
    exact ⟨by simp [bigIdr], by decide +kernel, by decide +kernel⟩
  · intro n hn
    simp only [List.mem_cons, List.not_mem_nil, or_false] at hn
    subst hn
    exact ⟨by simp, by simp, by decide⟩

example : streams (file 1 (sent hubBefore) ++ sent hubAfter) = [(0x1b, 0x100), (0x0f, 0x101)] := by decide +kernel

/-- A key frame of three bytes is small with the parameter sets of the only header. -/
example : ∀ s, s = none ∨ Announces (file 1 (sent hubBefore) ++ sent hubAfter) s →
    (if (0 : UInt8).toNat * 65536 + (0 : UInt8).toNat * 256 + (0 : UInt8).toNat = 0 then 14 else 19) +
      (accessUnit (annexB (sets s)) [[0x65, 1, 2]]).length < 176 := by
  rintro s (rfl | ⟨time, b0, b2, b3, b4, m, sps, pps, h1, ⟨-, hs, -, hp, v, w, y, z, l, k1, k2, hm⟩, rfl⟩)
  · decide +kernel
  have e : file 1 (sent hubBefore) ++ sent hubAfter =
      [⟨18, 0, string0 [111, 110] ++ [3, 0, 0, 9]⟩,
       ⟨9, 0, 0x17 :: 0 :: 0 :: 0 :: 0 :: [1, 100, 0, 31, 0xff, 0xe1, 0, 3, 0x67, 1, 2, 1, 0, 2, 0x68, 3]⟩,
       ⟨8, 0, 0xaf :: 0 :: (audioConfig 2 4 2 0 ++ [])⟩, ⟨9, 40, 0x17 :: 1 :: 0 :: 0 :: 80 :: avcc [bigIdr]⟩,
       ⟨9, 80, 0x27 :: 1 :: 0 :: 0 :: 0 :: avcc [[0x41, 5, 6]]⟩, ⟨8, 90, 0xaf :: 1 :: [9, 8, 7]⟩] := by decide +kernel
  rw [e] at h1
  simp only [List.mem_cons, List.not_mem_nil, or_false, TagRec.mk.injEq, List.cons.injEq] at h1
  rcases h1 with ⟨h, -⟩ | ⟨-, -, -, -, -, -, -, hm'⟩ | ⟨h, -⟩ | ⟨-, -, -, h, -⟩ | ⟨-, -, -, h, -⟩ | ⟨h, -⟩
  · exact absurd h (by decide)
  · have hl := congrArg List.length (hm.symm.trans hm')
    simp only [avcRecord, List.length_append, List.length_cons, List.length_nil] at hl
    have : (accessUnit (annexB (sets (some (sps, pps)))) [[0x65, 1, 2]]).length = 21 + sps.length + pps.length := by
      have e : accessUnit (annexB (sets (some (sps, pps)))) [[0x65, 1, 2]] =
        [0, 0, 0, 1, 9, 0xf0] ++ (annexB [sps, pps] ++ [0, 0, 0, 1, 0x65, 1, 2]) := rfl
      rw [e]
      simp [annexB]
      omega
    rw [this]
    simp
    omega
  · exact absurd h (by decide)
  · exact absurd h (by decide)
  · exact absurd h (by decide)
  · exact absurd h (by decide)

end Verif.Props
