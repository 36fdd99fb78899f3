import Verif.Props.TsStream
/-!
# Properties C132, C133: MP3 in a transport stream, packets for several mixers
-/
namespace Verif.Props
open Verif Verif.Ts Verif.Spec.Ts Verif.Spec.Es

/-- The packet after a `Mux` whose parsing succeeds. -/
theorem mux_packet (x : Mixer) (p : Packet) (h : (Parser.parse p ⟨x.parser, Sink.mem⟩).1 = .ok ()) : (x.mux p).2.2 = parsed x p := by
  rw [x.mux_ok p h (parsed x p) rfl]

/-- The packet after `Mux` is the packet before, but for the media. -/
theorem mux_packet_data (x : Mixer) (p : Packet) : ∃ m, (x.mux p).2.2 = { p with media := m } := by
  unfold Mixer.mux Mixer.parse
  rcases Parser.parse p ⟨x.parser, Sink.mem⟩ with ⟨_ | e | _ | _, d⟩
  · exact ⟨_, rfl⟩
  all_goals exact ⟨p.media, rfl⟩

theorem saveHeader_packet (x : Mixer) (p : Packet) (h : (Parser.parse p ⟨x.parser, Sink.mem⟩).1 = .ok ()) : (x.saveHeader p).2.2 = parsed x p := by
  unfold Mixer.saveHeader Mixer.parse parsed
  rcases hr : Parser.parse p ⟨x.parser, Sink.mem⟩ with ⟨r, d⟩
  rw [hr] at h
  simp only at h
  subst h
  rfl

/-! ## C132 -/

/-- C132 (partial): an MP3 frame that is accepted gets a PES packet of its own on PID 0x101, with a time stamp within 10 ms of the packet's.
Missing: the contents (`C132_mp3_refuted`). -/
theorem C132_mp3_partial {x : Mixer} (hx : MixReach x) (hw : x.ts.Reliable) (p : Packet) (ht : p.type = 1) (b0 h0 h1 h2 : UInt8) (frame : Bytes)
    (hd : p.data = b0 :: h0 :: h1 :: h2 :: frame) (hb : b0.toNat / 16 = 2) (hr : h2.toNat / 2 % 4 ≠ 3) (hrate : ∃ r, x.parser.sampleRate = .ok r) (a b : UInt32) :
    ∃ q y out pes, Flv.demux p = (.ok (), q) ∧ x.update q a b = (.ok (), y) ∧ (y.mux q).1 = .ok () ∧
      (y.mux q).2.1.ts.out = x.ts.out ++ out ∧ Carries out 0x101 pes ∧ pes.streamId = 0xc0 ∧ pes.dts = none ∧
      ((pes.pts : Int) - 90 * a.toNat % 2 ^ 32 ≤ 900 ∧ 90 * a.toNat % 2 ^ 32 - (pes.pts : Int) ≤ 900) ∧ pes.data = [] := by
  obtain ⟨hdr, e0, e1⟩ := (C08_flv_audio_header p ht b0 h0 (h1 :: h2 :: frame) hd).2.1 hb
  obtain ⟨vh, ah, g1, -⟩ := demux_header p (by rw [e0])
  rw [e0] at g1
  simp only [Option.some.injEq] at g1
  subst g1
  simp only [Option.some.injEq] at e1
  subst e1
  generalize hq : ({ p with header := some ⟨some vh, some (audioAnswers 2 0)⟩, media := h0 :: h1 :: h2 :: frame } : Packet) = q at *
  obtain ⟨hs, hh⟩ := hx
  have hinv := MixHist.inv hh
  have hqt : q.type = 1 := by rw [← hq]; exact ht
  have hqh : q.header = some ⟨some vh, some (audioAnswers 2 0)⟩ := by rw [← hq]
  have hqm : q.media = h0 :: h1 :: h2 :: frame := by rw [← hq]
  rcases (update_eq hinv q a b).2.1 hqt with ⟨d, s, e, -, -, -, d0, d1, d2⟩ | ⟨e, -⟩
  · have hy : MixReach { x with dts := d, pts := d, sync := s } := by
      have := MixReach.op ⟨hs, hh⟩ (.update q a b)
      unfold MixOp.after at this
      simp only at this
      rw [e] at this
      exact this
    generalize hyy : ({ x with dts := d, pts := d, sync := s } : Mixer) = y at *
    have hyt : y.ts = x.ts := by rw [← hyy]
    have hyd : y.dts = d := by rw [← hyy]
    have hyq : y.pts = d := by rw [← hyy]
    have hpar := (C68_routes q vh _ hqh y.parser Sink.mem).2.2 hqt rfl rfl _ rfl
    rw [hqm, Mp3.parse_eq] at hpar
    have hlt : h2.toNat / 2 % 4 < 3 := by omega
    have hok : (Parser.parse q ⟨y.parser, Sink.mem⟩).1 = .ok () ∧ (Parser.parse q ⟨y.parser, Sink.mem⟩).2.w = Sink.mem := by
      rw [hpar]
      generalize h2.toNat / 2 % 4 = k at *
      match k, hlt with
      | 0, _ => exact ⟨rfl, rfl⟩
      | 1, _ => exact ⟨rfl, rfl⟩
      | 2, _ => exact ⟨rfl, rfl⟩
    have hkind : Kind (parsed y q) false false := .audio hqt
    have hm : (parsed y q).media = [] := by
      show (Parser.parse q ⟨y.parser, Sink.mem⟩).2.w.out = _
      rw [hok.2]; rfl
    obtain ⟨k1, out, pes, k2, k3, k4, k5, k6, k7⟩ := mixer_pes hy q (by rw [hyt]; exact hw) hok.1 hkind (by simp)
    refine ⟨q, y, out, pes, e0, e, k1, by rw [k2, hyt], k3, k4, by simpa using k6, ?_, by rw [k7, hm]⟩
    rw [k5, hyq]
    have : ticks a = 90 * a.toNat % 2 ^ 32 := by
      simp only [ticks, UInt32.toNat_mul, show (90 : UInt32).toNat = 90 from rfl]
      have e32 : (2 : Nat) ^ 32 = 4294967296 := rfl
      have f32 : (2 : Int) ^ 32 = 4294967296 := rfl
      rw [e32, f32]; omega
    rw [← this]
    omega
  · obtain ⟨r, hr⟩ := hrate
    rw [hr] at e
    cases e

/-- C132 fails: the PES packet of every MP3 frame is empty, although every call succeeds; no byte of the frame is sent. -/
theorem C132_mp3_refuted {x : Mixer} (hx : MixReach x) (hw : x.ts.Reliable) (p : Packet) (ht : p.type = 1) (b0 h0 h1 h2 : UInt8) (frame : Bytes)
    (hd : p.data = b0 :: h0 :: h1 :: h2 :: frame) (hb : b0.toNat / 16 = 2) (hr : h2.toNat / 2 % 4 ≠ 3) (hrate : ∃ r, x.parser.sampleRate = .ok r) (a b : UInt32) :
    ∃ q y out pes, Flv.demux p = (.ok (), q) ∧ x.update q a b = (.ok (), y) ∧ (y.mux q).1 = .ok () ∧
      (y.mux q).2.1.ts.out = x.ts.out ++ out ∧ Carries out 0x101 pes ∧ pes.data ≠ h0 :: h1 :: h2 :: frame := by
  obtain ⟨q, y, out, pes, h1, h2, h3, h4, h5, -, -, -, h6⟩ := C132_mp3_partial hx hw p ht b0 h0 h1 h2 frame hd hb hr hrate a b
  exact ⟨q, y, out, pes, h1, h2, h3, h4, h5, by rw [h6]; simp⟩

example : ∃ q y out pes, Flv.demux { type := 1, data := [0x2f, 0xff, 0xfb, 0x90, 0x64, 1, 2] } = (.ok (), q) ∧ mixer2.update q 1000 0 = (.ok (), y) ∧
    (y.mux q).1 = .ok () ∧ (y.mux q).2.1.ts.out = mixer2.ts.out ++ out ∧ Carries out 0x101 pes ∧ pes.data ≠ [0xff, 0xfb, 0x90, 0x64, 1, 2] :=
  C132_mp3_refuted reach_mixer2 works_mixer2 _ rfl 0x2f 0xff 0xfb 0x90 [0x64, 1, 2] rfl (by decide) (by decide) ⟨44100, by decide +kernel⟩ 1000 0

/-! ## C133 -/

/-- What `Mux` makes of a raw AAC frame. -/
theorem aac_mux {y : Mixer} {o i c : Nat} (hx : MixConf y o i c) (ho : 1 ≤ o ∧ o ≤ 4) (hc : c ≤ 7) (hw : y.ts.Reliable) (q : Packet) (ht : q.type = 1)
    (vh : VideoHdr) (ah : AudioHdr) (hqh : q.header = some ⟨some vh, some ah⟩) (ha : ah.isSoundAAC = true) (h1 : ah.aacType = 1) (hf : q.media ≠ [])
    (hn : q.media.length ≤ 8184) :
    ∃ out pes hdr, (y.mux q).1 = .ok () ∧ (y.mux q).2.2 = { q with media := hdr ++ q.media } ∧ (y.mux q).2.1.ts.out = y.ts.out ++ out ∧
      Carries out 0x101 pes ∧ pes.data = hdr ++ q.media ∧ hdr.length = 7 ∧
      readAdts (hdr ++ q.media) = some
        ({ mpeg4 := true, layer := 0, crcAbsent := true, profile := o - 1, rateIndex := i, privateBit := 0
           channels := c, frameLength := 7 + q.media.length, blocks := 0 }, q.media) := by
  obtain ⟨ha', -, hi, -⟩ := MixConf.parser hx
  have hpar := (C68_routes q vh _ hqh y.parser Sink.mem).2.1 ht ha _ rfl
  rw [ha', h1] at hpar
  generalize hA : (⟨true, UInt8.ofNat o, UInt8.ofNat i, UInt8.ofNat c⟩ : Aac.Parser) = A at *
  have hg : A.gotSpecific = true := by rw [← hA]
  have haac := Aac.raw_eq q.media ⟨A, Sink.mem⟩ hf hg
  rw [Dev.onW_apply, ((Emits.write _).bind (Emits.write q.media)).reliable Sink.mem (fun _ => rfl)] at haac
  rw [Option.getD_some, haac] at hpar
  have hkind : Kind (parsed y q) false false := .audio ht
  have hok : (Parser.parse q ⟨y.parser, Sink.mem⟩).1 = .ok () := by rw [hpar]
  have hm : (parsed y q).media = Aac.adtsHeader A q.media.length ++ q.media := by
    show (Parser.parse q ⟨y.parser, Sink.mem⟩).2.w.out = _
    rw [hpar]; simp [Sink.mem]
  obtain ⟨k1, out, pes, k2, k3, k4, k5, k6, k7⟩ := mixer_pes (MixConf.reach hx) q hw hok hkind (by simp)
  refine ⟨out, pes, Aac.adtsHeader A q.media.length, k1, ?_, k2, k3, by rw [k7, hm], rfl, ?_⟩
  · rw [mux_packet y q hok, ← hm]; rfl
  · rw [Aac.readAdts_header _ _ _ (by rw [← hA]; simp; omega) (by rw [← hA]; simp; omega), ← hA]
    simp only [UInt8.toNat_ofNat']
    congr 3 <;> omega

/-- C133 fails for every AAC frame: the second mixer puts an ADTS header in front of the one of the first, and what its receiver gets as the
frame is the ADTS header and the frame. -/
theorem C133_aac_refuted {x y : Mixer} {o i c o' i' c' : Nat} (hx : MixConf x o i c) (hy : MixConf y o' i' c') (ho : 1 ≤ o ∧ o ≤ 4) (ho' : 1 ≤ o' ∧ o' ≤ 4)
    (hc : c ≤ 7) (hc' : c' ≤ 7) (hw : x.ts.Reliable) (hw' : y.ts.Reliable) (p : Packet) (ht : p.type = 1) (b0 : UInt8) (frame : Bytes)
    (hd : p.data = b0 :: 1 :: frame) (hb : b0.toNat / 16 = 10) (hf : frame ≠ []) (hn : frame.length ≤ 8177) :
    ∃ q out pes hdr adts out' pes' adts', Flv.demux p = (.ok (), q) ∧
      (x.mux q).1 = .ok () ∧ (x.mux q).2.1.ts.out = x.ts.out ++ out ∧ Carries out 0x101 pes ∧ readAdts pes.data = some (adts, frame) ∧
      (y.mux (x.mux q).2.2).1 = .ok () ∧ (y.mux (x.mux q).2.2).2.1.ts.out = y.ts.out ++ out' ∧ Carries out' 0x101 pes' ∧
      readAdts pes'.data = some (adts', hdr ++ frame) ∧ hdr.length = 7 := by
  obtain ⟨q0, h0, h1⟩ := (C08_flv_audio_header p ht b0 1 frame hd).1 hb
  obtain ⟨vh, ah, g1, -⟩ := demux_header p (by rw [h0])
  rw [h0] at g1
  simp only [Option.some.injEq] at g1
  subst g1
  simp only [Option.some.injEq] at h1
  subst h1
  obtain ⟨out, pes, hdr, k1, k2, k3, k4, k5, k6, k7⟩ := aac_mux hx ho hc hw
    { p with header := some ⟨some vh, some (audioAnswers 10 (1 : UInt8).toNat)⟩, media := frame } ht vh _ rfl rfl rfl hf (by simp only; omega)
  obtain ⟨out', pes', hdr', l1, l2, l3, l4, l5, l6, l7⟩ := aac_mux hy ho' hc' hw'
    { p with header := some ⟨some vh, some (audioAnswers 10 (1 : UInt8).toNat)⟩, media := hdr ++ frame } ht vh _ rfl rfl rfl (by simp [hf])
    (by simp only [List.length_append]; omega)
  refine ⟨_, out, pes, hdr, _, out', pes', _, h0, k1, k3, k4, by rw [k5]; exact k7, ?_, ?_, l4, by rw [l5]; exact l7, k6⟩
  · rw [k2]; exact l1
  · rw [k2]; exact l3

example : ∃ q out pes hdr adts out' pes' adts', Flv.demux { type := 1, data := [0xaf, 1, 9, 8, 7] } = (.ok (), q) ∧
      (mixer2.mux q).1 = .ok () ∧ (mixer2.mux q).2.1.ts.out = mixer2.ts.out ++ out ∧ Carries out 0x101 pes ∧ readAdts pes.data = some (adts, [9, 8, 7]) ∧
      (mixer2.mux (mixer2.mux q).2.2).1 = .ok () ∧ (mixer2.mux (mixer2.mux q).2.2).2.1.ts.out = mixer2.ts.out ++ out' ∧ Carries out' 0x101 pes' ∧
      readAdts pes'.data = some (adts', hdr ++ [9, 8, 7]) ∧ hdr.length = 7 :=
  C133_aac_refuted conf_mixer2 conf_mixer2 (by decide) (by decide) (by decide) (by decide) works_mixer2 works_mixer2 _ rfl 0xaf [9, 8, 7] rfl
    (by decide) (by simp) (by decide)

/-- How a sequence header is parsed. -/
theorem parse_config (q : Packet) (hq : avcConfig q ∨ aacConfig q) (c : Parser.CodecParser) :
    (Parser.parse q ⟨c, Sink.mem⟩).2.w.out = [] ∧ (q.media = [] → (Parser.parse q ⟨c, Sink.mem⟩).1 = .err .other) := by
  rcases hq with ⟨ht, v, a, hh, h1, h2⟩ | ⟨ht, v, a, hh, h1, h2⟩
  · have e : Parser.parse q ⟨c, Sink.mem⟩ = Parser.onH264 (H264.parse q.media true) ⟨c, Sink.mem⟩ := by
      unfold Parser.parse
      rw [if_neg (by simp [hh]), if_pos (show q.type = PktVideo from ht)]
      simp only [Packet.asVideo, hh, GoM.lift_ok_bind, h1, h2, if_true]
    rw [e, Parser.onH264]
    by_cases hm : q.media = []
    · rw [hm]; exact ⟨rfl, fun _ => rfl⟩
    · rw [H264.parse_hdr _ _ hm]; exact ⟨rfl, fun h => absurd h hm⟩
  · have h2' : a.aacType = 0 := UInt8.toNat_inj.mp h2
    have e : Parser.parse q ⟨c, Sink.mem⟩ = Parser.onAac (Aac.parse q.media 0) ⟨c, Sink.mem⟩ := by
      unfold Parser.parse
      rw [if_neg (by simp [hh]), if_neg (by rw [ht]; decide), if_pos (show q.type = PktAudio from ht)]
      simp only [Packet.asAudio, hh, GoM.lift_ok_bind, h1, h2', if_true]
    rw [e, Parser.onAac]
    match q.media with
    | [] => exact ⟨rfl, fun _ => rfl⟩
    | [b] => exact ⟨rfl, fun h => absurd h (by simp)⟩
    | b0 :: b1 :: r => rw [Aac.specific_eq]; exact ⟨rfl, fun h => absurd h (by simp)⟩

/-- C133 fails for every sequence header: once it has been saved in one mixer, no mixer can save it (or mux it) any more. -/
theorem C133_sequence_header_refuted (x y : Mixer) (q : Packet) (hq : avcConfig q ∨ aacConfig q) (hok : (Parser.parse q ⟨x.parser, Sink.mem⟩).1 = .ok ()) :
    (∀ q', q' = (x.saveAVCHeader q).2.2 ∨ q' = (x.saveAACHeader q).2.2 ∨ q' = (x.mux q).2.2 →
      (y.saveAVCHeader q').1 = .err .other ∧ (y.saveAACHeader q').1 = .err .other ∧ (y.mux q').1 = .err .other) := by
  intro q' hq'
  have hmed : q' = { q with media := [] } := by
    have hp : parsed x q = { q with media := [] } := by rw [parsed, (parse_config q hq x.parser).1]
    rcases hq' with rfl | rfl | rfl
    · rw [← hp]; exact saveHeader_packet { x with types := x.types.isVideo } q hok
    · rw [← hp]; exact saveHeader_packet { x with types := x.types.isAudio } q hok
    · rw [← hp, mux_packet x q hok]
  have hcfg : avcConfig q' ∨ aacConfig q' := by rw [hmed]; exact hq
  have hbad : ∀ z : Mixer, (z.parse q').1 = .err .other := by
    intro z
    have := (parse_config q' hcfg z.parser).2 (by rw [hmed])
    unfold Mixer.parse
    rcases hr : Parser.parse q' ⟨z.parser, Sink.mem⟩ with ⟨r, d⟩
    rw [hr] at this
    simp only at this
    subst this
    rfl
  have hfail : ∀ z : Mixer, (z.saveHeader q').1 = .err .other ∧ (z.mux q').1 = .err .other := by
    intro z
    have := hbad z
    unfold Mixer.saveHeader Mixer.mux
    rcases hr : z.parse q' with ⟨r, d⟩
    rw [hr] at this
    simp only at this
    subst this
    exact ⟨rfl, rfl⟩
  exact ⟨(hfail _).1, (hfail _).1, (hfail y).2⟩

example : avcConfig avcCfg ∧ aacConfig aacCfg ∧ (Parser.parse avcCfg ⟨(Mixer.new Sink.mem).parser, Sink.mem⟩).1 = .ok () ∧
    (((Mixer.new Sink.mem).saveAVCHeader ((Mixer.new Sink.mem).saveAVCHeader avcCfg).2.2).1) = .err .other :=
  ⟨⟨rfl, _, _, rfl, rfl, rfl⟩, ⟨rfl, _, _, rfl, rfl, rfl⟩, by decide +kernel,
    (C133_sequence_header_refuted (Mixer.new Sink.mem) (Mixer.new Sink.mem) avcCfg (.inl ⟨rfl, _, _, rfl, rfl, rfl⟩) (by decide +kernel) _ (.inl rfl)).1⟩

/-- What `Mux` makes of an AVC frame, if the parser turns it into `au`. -/
theorem avc_mux {z : Mixer} (hz : MixReach z) (hzw : z.ts.Reliable) (q : Packet) (ht : q.type = 0) (vh : VideoHdr) (ah : AudioHdr)
    (hqh : q.header = some ⟨some vh, some ah⟩) (hc : vh.isCodecAvc = true ∧ vh.isSeqHdr = false) (au : Bytes)
    (hlen : vh.isKeyFrame = true → 170 ≤ au.length)
    (hp : ∃ w', H264.parse q.media false ⟨z.parser.h264.getD .new, Sink.mem⟩ = (.ok (), ⟨z.parser.h264.getD .new, w'⟩) ∧ w'.out = au) :
    (Parser.parse q ⟨z.parser, Sink.mem⟩).1 = .ok () ∧ (z.mux q).1 = .ok () ∧ (z.mux q).2.2 = { q with media := au } ∧
      ∃ out pes, (z.mux q).2.1.ts.out = z.ts.out ++ out ∧ Carries out 0x100 pes ∧ pes.data = au := by
  obtain ⟨w', k1, k2⟩ := hp
  have hpar := (C68_routes q vh _ hqh z.parser Sink.mem).1 ht hc.1 _ rfl
  rw [hc.2, k1] at hpar
  have hok : (Parser.parse q ⟨z.parser, Sink.mem⟩).1 = .ok () := by rw [hpar]
  have hkind : Kind (parsed z q) true vh.isKeyFrame := .video vh ht (by simp [Packet.asVideo, parsed, hqh])
  have hm : (parsed z q).media = au := by
    show (Parser.parse q ⟨z.parser, Sink.mem⟩).2.w.out = _
    rw [hpar]; exact k2
  obtain ⟨m1, out, pes, m2, m3, -, -, -, m7⟩ := mixer_pes hz q hzw hok hkind (by
    intro hkey
    have := hlen hkey
    unfold pesLen
    rw [hm]
    split <;> omega)
  refine ⟨hok, m1, ?_, out, pes, m2, m3, by rw [m7, hm]⟩
  rw [mux_packet z q hok, ← hm]
  rfl

/-- What `Demux` makes of an AVC frame. -/
theorem avc_demux (p : Packet) (ht : p.type = 0) (b0 b2 b3 b4 : UInt8) (m : Bytes) (hd : p.data = b0 :: 1 :: b2 :: b3 :: b4 :: m)
    (hb : b0.toNat / 16 = 1 ∨ b0.toNat / 16 = 2) (hb7 : b0.toNat % 16 = 7) :
    ∃ vh ah, Flv.demux p = (.ok (), { p with header := some ⟨some vh, some ah⟩, media := m }) ∧ (vh.isCodecAvc = true ∧ vh.isSeqHdr = false) ∧
      vh.isKeyFrame = decide (b0.toNat / 16 = 1) := by
  obtain ⟨q0, h0, h2⟩ := C07_flv_video_header p ht b0 1 b2 b3 b4 m hd hb
  obtain ⟨vh, ah, g1, -⟩ := demux_header p (by rw [h0])
  rw [h0] at g1
  simp only [Option.some.injEq] at g1
  subst g1
  simp only [Option.some.injEq] at h2
  refine ⟨vh, ah, h0, ?_⟩
  rw [h2]
  simp only [videoAnswers, hb7]
  refine ⟨⟨by decide, by simp⟩, ?_⟩
  rw [Bool.eq_iff_iff]; simp

/-- C133 (partial): a video frame that has been muxed once can be muxed again by any other mixer, even one that has not seen the sequence header, and
the receivers of both get the same access unit.  Missing: AAC frames (`C133_aac_refuted`) and sequence headers (`C133_sequence_header_refuted`). -/
theorem C133_video_partial {x y : Mixer} {hs : List (Bytes × Bytes × Bytes)} (hx : MixHist x hs) (hy : MixReach y) (hw : x.ts.Reliable) (hw' : y.ts.Reliable)
    (p : Packet) (ht : p.type = 0) (b0 b2 b3 b4 : UInt8) (nals : List Bytes) (hd : p.data = b0 :: 1 :: b2 :: b3 :: b4 :: avcc nals)
    (hb : b0.toNat / 16 = 1 ∨ b0.toNat / 16 = 2) (hb7 : b0.toNat % 16 = 7)
    (hn : ∀ n ∈ nals, Supported n) (hne : nals ≠ []) (h1 : ∀ n, nals.head? = some n → n.length ≠ 1)
    (au : Bytes) (hau : au = accessUnit (annexB (hs.flatMap fun x => [x.1, x.2.1 ++ x.2.2])) nals)
    (hlen : b0.toNat / 16 = 1 → 170 ≤ au.length) :
    ∃ q out pes out' pes', Flv.demux p = (.ok (), q) ∧ (x.mux q).1 = .ok () ∧ (x.mux q).2.1.ts.out = x.ts.out ++ out ∧ Carries out 0x100 pes ∧ pes.data = au ∧
      (y.mux (x.mux q).2.2).1 = .ok () ∧ (y.mux (x.mux q).2.2).2.1.ts.out = y.ts.out ++ out' ∧ Carries out' 0x100 pes' ∧ pes'.data = au := by
  obtain ⟨vh, ah, h0, hc, hk⟩ := avc_demux p ht b0 b2 b3 b4 _ hd hb hb7
  have hl : vh.isKeyFrame = true → 170 ≤ au.length := fun h => hlen (by simpa [hk] using h)
  have hinv := MixHist.inv hx
  obtain ⟨w', k1, k2⟩ := C59_annexb _ hs hinv.h264 nals hn hne h1 Sink.mem (fun _ => rfl)
  rw [← hau] at k2
  obtain ⟨-, a1, a2, out, pes, a3, a4, a5⟩ := avc_mux ⟨hs, hx⟩ hw { p with header := some ⟨some vh, some ah⟩, media := avcc nals } ht vh ah rfl hc au hl
    ⟨w', k1, by simpa [Sink.mem] using k2⟩
  have hstart : ∃ r, au = [0, 0, 0, 1] ++ r := ⟨au.drop 4, by rw [hau, accessUnit]; split <;> rfl⟩
  obtain ⟨r, hr⟩ := hstart
  obtain ⟨w2, l1, l2⟩ := C61_passthrough r (y.parser.h264.getD .new) Sink.mem (fun _ => rfl)
  rw [← hr] at l1 l2
  obtain ⟨-, b1, -, out', pes', b3, b4, b5⟩ := avc_mux hy hw' { p with header := some ⟨some vh, some ah⟩, media := au } ht vh ah rfl hc au hl
    ⟨w2, l1, by simpa [Sink.mem] using l2⟩
  exact ⟨_, out, pes, out', pes', h0, a1, a3, a4, a5, by rw [a2]; exact b1, by rw [a2]; exact b3, b4, b5⟩

example : ∃ q out pes out' pes', Flv.demux { type := 0, data := 0x27 :: 1 :: 0 :: 0 :: 0 :: avcc [[0x41, 5, 6]] } = (.ok (), q) ∧ (mixer2.mux q).1 = .ok () ∧
    (mixer2.mux q).2.1.ts.out = mixer2.ts.out ++ out ∧ Carries out 0x100 pes ∧ pes.data = [0, 0, 0, 1, 9, 0xf0, 0, 0, 0, 1, 0x41, 5, 6] ∧
    ((Mixer.new Sink.mem).mux (mixer2.mux q).2.2).1 = .ok () ∧ ((Mixer.new Sink.mem).mux (mixer2.mux q).2.2).2.1.ts.out = (Mixer.new Sink.mem).ts.out ++ out' ∧
    Carries out' 0x100 pes' ∧ pes'.data = [0, 0, 0, 1, 9, 0xf0, 0, 0, 0, 1, 0x41, 5, 6] := by
  obtain ⟨hs, h⟩ := reach_mixer2
  refine C133_video_partial h ⟨_, .new Sink.mem⟩ works_mixer2 (fun _ => rfl) _ rfl 0x27 0 0 0 [[0x41, 5, 6]] rfl (by decide) (by decide) ?_ (by simp)
    (by simp) _ ?_ (by decide)
  · intro n hn
    simp only [List.mem_cons, List.not_mem_nil, or_false] at hn
    subst hn
    exact ⟨by simp, by simp, by decide⟩
  · rfl

/-- C133 (partial): with a new `Demux` every packet is as new after any `Mux`. -/
theorem C133_demux_again_partial (x : Mixer) (p q : Packet) (h : Flv.demux p = (.ok (), q)) : Flv.demux (x.mux q).2.2 = (.ok (), q) := by
  obtain ⟨m, hm⟩ := mux_packet_data x q
  rw [hm]
  unfold Flv.demux at h ⊢
  rcases hr : Flv.parseMediaTagHeader p.data p.type {} with ⟨n | e | _ | _, tag⟩ <;> rw [hr] at h <;> simp only at h
  · rcases hg : goSlice p.data n p.data.length with m' | e | _ | _ <;> rw [hg] at h <;> simp only [Prod.mk.injEq, reduceCtorEq, false_and, true_and] at h
    subst h
    simp only [hr, hg]
  all_goals simp at h

example (x : Mixer) : Flv.demux (x.mux (Flv.demux { type := 1, data := [0xaf, 1, 9, 8, 7] }).2).2.2 = (.ok (), (Flv.demux { type := 1, data := [0xaf, 1, 9, 8, 7] }).2) :=
  C133_demux_again_partial x { type := 1, data := [0xaf, 1, 9, 8, 7] } _ (Prod.ext (by decide +kernel) rfl)

end Verif.Props
