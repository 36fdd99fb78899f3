import Verif.Props.TsAgain
/-!
# C136: sequence headers given to `Mux` of the transport stream mixer
-/
namespace Verif.Props
open Verif Verif.Ts Verif.Spec.Ts Verif.Spec.Es

/-- A demuxed H.264 sequence header. -/
theorem avc_config_demux (p : Packet) (ht : p.type = 0) (b0 b2 b3 b4 : UInt8) (m : Bytes) (hd : p.data = b0 :: 0 :: b2 :: b3 :: b4 :: m)
    (hb : b0.toNat / 16 = 1) (hb7 : b0.toNat % 16 = 7) :
    ∃ q vh ah, Flv.demux p = (.ok (), q) ∧ q = { p with header := some ⟨some vh, some ah⟩, media := m } ∧ avcConfig q ∧
      vh.isKeyFrame = true := by
  obtain ⟨q0, h0, h2⟩ := C07_flv_video_header p ht b0 0 b2 b3 b4 m hd (.inl hb)
  obtain ⟨vh, ah, g1, -⟩ := demux_header p (by rw [h0])
  rw [h0] at g1
  simp only [Option.some.injEq] at g1
  subst g1
  simp only [Option.some.injEq] at h2
  refine ⟨_, vh, ah, h0, rfl, ⟨ht, vh, some ah, rfl, ?_, ?_⟩, ?_⟩ <;> rw [h2] <;> simp [hb, hb7, videoAnswers]

/-- The code violates C136 for every H.264 sequence header: `Mux` succeeds and writes a packet on the video PID that is
no PES packet. -/
theorem C136_video_refuted {y : Mixer} (hy : MixReach y) (hw : y.ts.Reliable) (p : Packet) (ht : p.type = 0) (b0 b2 b3 b4 : UInt8)
    (m sps pps ext : Bytes) (hd : p.data = b0 :: 0 :: b2 :: b3 :: b4 :: m) (hb : b0.toNat / 16 = 1) (hb7 : b0.toNat % 16 = 7)
    (hm : Record m sps pps ext) :
    ∃ q out ps, Flv.demux p = (.ok (), q) ∧ (y.mux q).1 = .ok () ∧ (y.mux q).2.1.ts.out = y.ts.out ++ out ∧
      parseStream out = some ps ∧ (∀ t ∈ ps, t.pid = 0x100) ∧ parsePes (payload ps) = none := by
  obtain ⟨q, vh, ah, h0, hq, hcfg, hk⟩ := avc_config_demux p ht b0 b2 b3 b4 m hd hb hb7
  have hqm : q.media = m := by rw [hq]
  have hok : (Parser.parse q ⟨y.parser, Sink.mem⟩).1 = .ok () := by
    obtain ⟨ht', v, a, hh, h1, h2⟩ := hcfg
    have e : Parser.parse q ⟨y.parser, Sink.mem⟩ = Parser.onH264 (H264.parse q.media true) ⟨y.parser, Sink.mem⟩ := by
      unfold Parser.parse
      rw [if_neg (by simp [hh]), if_pos (show q.type = PktVideo from ht')]
      simp only [Packet.asVideo, hh, GoM.lift_ok_bind, h1, h2, if_true]
    rw [e, Parser.onH264, hqm, H264.parse_hdr _ _ (record_ne hm), H264.parseSpecific_ok _ _ _ _ _ hm]
  have hmed : (parsed y q).media = [] := (parse_config q (.inl hcfg) y.parser).1
  have hkind : Kind (parsed y q) true true := by
    have : Kind (parsed y q) true vh.isKeyFrame := .video vh hcfg.1 (by simp [parsed, Packet.asVideo, hq])
    rwa [hk] at this
  have hlen : pesLen true (parsed y q) y.pts y.dts < 176 := by
    unfold pesLen; rw [hmed]; split <;> simp
  obtain ⟨hs, hh⟩ := hy
  have hi := MixHist.inv hh
  obtain ⟨ps, h1, -, h3, -, h2⟩ := C47_small_key_frame_refuted hi.muxer hkind y.dts y.pts hlen
  obtain ⟨out, k1, k2, k3⟩ := h1 y.ts hw
  refine ⟨q, out, ps, h0, ?_, ?_, k3, h3, h2⟩
  · rw [y.mux_ok q hok (parsed y q) rfl]; exact k1
  · rw [y.mux_ok q hok (parsed y q) rfl]; exact k2

/-- C136 (partial): all the same the parameter sets are understood.  The next frame gets them like those of a header that
was saved.

Full claim: nothing is written for the header itself (`C136_video_refuted`). -/
theorem C136_parameters_partial {y : Mixer} {hs : List (Bytes × Bytes × Bytes)} (hy : MixHist y hs) (hw : y.ts.Reliable)
    (p : Packet) (ht : p.type = 0) (b0 b2 b3 b4 : UInt8) (m sps pps ext : Bytes) (hd : p.data = b0 :: 0 :: b2 :: b3 :: b4 :: m)
    (hb : b0.toNat / 16 = 1) (hb7 : b0.toNat % 16 = 7) (hm : Record m sps pps ext)
    (p' : Packet) (ht' : p'.type = 0) (c0 c2 c3 c4 : UInt8) (nals : List Bytes) (hd' : p'.data = c0 :: 1 :: c2 :: c3 :: c4 :: avcc nals)
    (hc : c0.toNat / 16 = 1 ∨ c0.toNat / 16 = 2) (hc7 : c0.toNat % 16 = 7)
    (hn : ∀ n ∈ nals, Supported n) (hne : nals ≠ []) (h1 : ∀ n, nals.head? = some n → n.length ≠ 1) (a b : UInt32)
    (au : Bytes) (hau : au = accessUnit (annexB ((hs ++ [(sps, pps, ext)]).flatMap fun x => [x.1, x.2.1 ++ x.2.2])) nals)
    (hlen : c0.toNat / 16 = 1 → 170 ≤ au.length) :
    ∃ x q z out pes, x = (y.mux (Flv.demux p).2).2.1 ∧ Flv.demux p' = (.ok (), q) ∧ x.update q a b = (.ok (), z) ∧ (z.mux q).1 = .ok () ∧
      (z.mux q).2.1.ts.out = x.ts.out ++ out ∧ Carries out 0x100 pes ∧ pes.data = au := by
  obtain ⟨q, vh, ah, h0, hq, hcfg, hk⟩ := avc_config_demux p ht b0 b2 b3 b4 m hd hb hb7
  have hqm : q.media = m := by rw [hq]
  have hx : MixHist (y.mux q).2.1 (hs ++ [(sps, pps, ext)]) := .record (.mux q) q sps pps ext hy rfl hcfg (hqm ▸ hm)
  have hxw : (y.mux q).2.1.ts.Reliable := by
    obtain ⟨q', out, ps, e, k, -⟩ := C136_video_refuted ⟨hs, hy⟩ hw p ht b0 b2 b3 b4 m sps pps ext hd hb hb7 hm
    rw [h0] at e
    obtain rfl : q = q' := (Prod.mk.inj e).2
    exact mux_works ⟨hs, hy⟩ q hw k
  obtain ⟨q', z, out, pes, k1, k2, k3, k4, k5, -, -, -, k6⟩ := C86_avc_end_to_end_partial hx hxw p' ht' c0 c2 c3 c4 nals hd' hc hc7 hn hne h1 a b au hau
    (fun h => by have := hlen h; split <;> omega)
  exact ⟨_, q', z, out, pes, by rw [h0], k1, k2, k3, k4, k5, k6⟩

/-- A demuxed AAC sequence header. -/
theorem aac_config_demux (p : Packet) (ht : p.type = 1) (b0 : UInt8) (m : Bytes) (hd : p.data = b0 :: 0 :: m) (hb : b0.toNat / 16 = 10) :
    ∃ q, Flv.demux p = (.ok (), q) ∧ q.media = m ∧ q.type = 1 ∧ aacConfig q := by
  obtain ⟨q0, h0, h1⟩ := (C08_flv_audio_header p ht b0 0 m hd).1 hb
  obtain ⟨vh, ah, g1, -⟩ := demux_header p (by rw [h0])
  rw [h0] at g1
  simp only [Option.some.injEq] at g1
  subst g1
  simp only [Option.some.injEq] at h1
  exact ⟨_, h0, rfl, ht, ht, some vh, ah, rfl, by rw [h1]; rfl, by rw [h1]; rfl⟩

/-- The code violates C136 for every AAC sequence header: `Mux` succeeds and writes a PES packet without data, which a
receiver takes for a frame. -/
theorem C136_audio_refuted {y : Mixer} (hy : MixReach y) (hw : y.ts.Reliable) (p : Packet) (ht : p.type = 1) (b0 : UInt8)
    (o i c l : Nat) (extra : Bytes) (hd : p.data = b0 :: 0 :: (audioConfig o i c l ++ extra)) (hb : b0.toNat / 16 = 10)
    (ho : o < 32) (hi : i < 13) (hc : c < 16) (hl : l < 8) :
    ∃ q out pes, Flv.demux p = (.ok (), q) ∧ (y.mux q).1 = .ok () ∧ (y.mux q).2.1.ts.out = y.ts.out ++ out ∧
      Carries out 0x101 pes ∧ pes.data = [] := by
  obtain ⟨q, h0, hm, hqt, hcfg⟩ := aac_config_demux p ht b0 _ hd hb
  have hok : (Parser.parse q ⟨y.parser, Sink.mem⟩).1 = .ok () := by
    obtain ⟨ht', v, a, hh, h1, h2⟩ := hcfg
    exact (C66_configured y.parser q v a Sink.mem hh ht' h1 (UInt8.toNat_inj.mp h2) o i c l ho hi hc hl extra hm).1
  have hmed : (parsed y q).media = [] := (parse_config q (.inr hcfg) y.parser).1
  obtain ⟨k1, out, pes, k2, k3, -, -, -, k7⟩ := mixer_pes hy q hw hok (.audio hqt : Kind (parsed y q) false false) (by simp)
  exact ⟨q, out, pes, h0, k1, k2, k3, by rw [k7, hmed]⟩

/-- C136 (partial): all the same the configuration is understood; the next frame is sent with it.

Full claim: nothing is written for the header itself (`C136_audio_refuted`). -/
theorem C136_configuration_partial {y : Mixer} (hy : MixReach y) (hw : y.ts.Reliable) (p : Packet) (ht : p.type = 1) (b0 : UInt8)
    (o i c l : Nat) (extra : Bytes) (hd : p.data = b0 :: 0 :: (audioConfig o i c l ++ extra)) (hb : b0.toNat / 16 = 10)
    (ho : 1 ≤ o ∧ o ≤ 4) (hi : i < 13) (hc : c ≤ 7) (hl : l < 8)
    (p' : Packet) (ht' : p'.type = 1) (c0 : UInt8) (frame : Bytes) (hd' : p'.data = c0 :: 1 :: frame) (hc0 : c0.toNat / 16 = 10)
    (hf : frame ≠ []) (hn : frame.length ≤ 8184) (a b : UInt32) :
    ∃ x q z out pes, x = (y.mux (Flv.demux p).2).2.1 ∧ Flv.demux p' = (.ok (), q) ∧ x.update q a b = (.ok (), z) ∧ (z.mux q).1 = .ok () ∧
      (z.mux q).2.1.ts.out = x.ts.out ++ out ∧ Carries out 0x101 pes ∧
      readAdts pes.data = some
        ({ mpeg4 := true, layer := 0, crcAbsent := true, profile := o - 1, rateIndex := i, privateBit := 0
           channels := c, frameLength := 7 + frame.length, blocks := 0 }, frame) := by
  obtain ⟨q, h0, hm, hqt, hcfg⟩ := aac_config_demux p ht b0 _ hd hb
  have hx : MixConf (y.mux q).2.1 o i c := .config (.mux q) q o i c l extra hy rfl hcfg hm (by omega) hi (by omega) hl
  have hxw : (y.mux q).2.1.ts.Reliable := by
    obtain ⟨q', out, pes, e, k, -⟩ := C136_audio_refuted hy hw p ht b0 o i c l extra hd hb (by omega) hi (by omega) hl
    rw [h0] at e
    obtain rfl : q = q' := (Prod.mk.inj e).2
    exact mux_works hy q hw k
  obtain ⟨q', z, out, pes, hdr, k1, k2, k3, k4, k5, -, -, -, k6, -, k7⟩ := C85_aac_end_to_end hx ho hc hxw p' ht' c0 frame hd' hc0 hf hn a b
  exact ⟨_, q', z, out, pes, by rw [h0], k1, k2, k3, k4, k5, by rw [k6]; exact k7⟩

example : ∃ q out ps, Flv.demux { type := 0, data := [0x17, 0, 0, 0, 0, 1, 100, 0, 31, 0xff, 0xe1, 0, 3, 0x67, 1, 2, 1, 0, 2, 0x68, 3] } = (.ok (), q) ∧
    (mixer2.mux q).1 = .ok () ∧ (mixer2.mux q).2.1.ts.out = mixer2.ts.out ++ out ∧
    parseStream out = some ps ∧ (∀ t ∈ ps, t.pid = 0x100) ∧ parsePes (payload ps) = none :=
  C136_video_refuted reach_mixer2 works_mixer2 _ rfl 0x17 0 0 0 [1, 100, 0, 31, 0xff, 0xe1, 0, 3, 0x67, 1, 2, 1, 0, 2, 0x68, 3] [0x67, 1, 2] [0x68, 3] []
    rfl (by decide) (by decide) ⟨by simp, by decide, by simp, by decide, 1, 100, 0, 31, 0xff, 0xe1, 1, rfl⟩
example : ∃ x q z out pes, x = (mixer2.mux (Flv.demux { type := 0, data := [0x17, 0, 0, 0, 0, 1, 100, 0, 31, 0xff, 0xe1, 0, 3, 0x67, 1, 2, 1, 0, 2, 0x68, 3] }).2).2.1 ∧
    Flv.demux { type := 0, data := [0x27, 1, 0, 0, 0, 0, 0, 0, 3, 0x41, 5, 6] } = (.ok (), q) ∧ x.update q 40 0 = (.ok (), z) ∧ (z.mux q).1 = .ok () ∧
    (z.mux q).2.1.ts.out = x.ts.out ++ out ∧ Carries out 0x100 pes ∧ pes.data = [0, 0, 0, 1, 9, 0xf0, 0, 0, 0, 1, 0x41, 5, 6] := by
  obtain ⟨hs, h⟩ := reach_mixer2
  refine C136_parameters_partial h works_mixer2 _ rfl 0x17 0 0 0 [1, 100, 0, 31, 0xff, 0xe1, 0, 3, 0x67, 1, 2, 1, 0, 2, 0x68, 3] [0x67, 1, 2] [0x68, 3] []
    rfl (by decide) (by decide) ⟨by simp, by decide, by simp, by decide, 1, 100, 0, 31, 0xff, 0xe1, 1, rfl⟩ _ rfl 0x27 0 0 0 [[0x41, 5, 6]] rfl
    (by decide) (by decide) ?_ (by simp) (by simp) 40 0 _ ?_ (by decide)
  · intro n hn
    simp only [List.mem_cons, List.not_mem_nil, or_false] at hn
    subst hn
    exact ⟨by simp, by simp, by decide⟩
  · rfl
example : ∃ q out pes, Flv.demux { type := 1, data := [0xaf, 0, 0x12, 0x10] } = (.ok (), q) ∧ (mixer2.mux q).1 = .ok () ∧
    (mixer2.mux q).2.1.ts.out = mixer2.ts.out ++ out ∧ Carries out 0x101 pes ∧ pes.data = [] :=
  C136_audio_refuted reach_mixer2 works_mixer2 _ rfl 0xaf 2 4 2 0 [] rfl (by decide) (by decide) (by decide) (by decide) (by decide)
example : ∃ x q z out pes, x = (mixer2.mux (Flv.demux { type := 1, data := [0xaf, 0, 0x12, 0x10] }).2).2.1 ∧
    Flv.demux { type := 1, data := [0xaf, 1, 9, 8, 7] } = (.ok (), q) ∧ x.update q 40 0 = (.ok (), z) ∧ (z.mux q).1 = .ok () ∧
    (z.mux q).2.1.ts.out = x.ts.out ++ out ∧ Carries out 0x101 pes ∧
    readAdts pes.data = some
      ({ mpeg4 := true, layer := 0, crcAbsent := true, profile := 1, rateIndex := 4, privateBit := 0
         channels := 2, frameLength := 10, blocks := 0 }, [9, 8, 7]) :=
  C136_configuration_partial reach_mixer2 works_mixer2 _ rfl 0xaf 2 4 2 0 [] rfl (by decide) (by decide) (by decide) (by decide) (by decide)
    _ rfl 0xaf [9, 8, 7] rfl (by decide) (by simp) (by decide) 40 0

end Verif.Props
