import Verif.Spec.TsMixerHistory
import Verif.Props.Ts
import Verif.Props.Parser
/-! # Lemmas about the transport stream mixer -/
namespace Verif.Ts
open Verif Verif.Spec.Ts Verif.Spec.Es Verif.Props

theorem Mixer.parse_ok (x : Mixer) (p : Packet) (h : (Parser.parse p ⟨x.parser, Sink.mem⟩).1 = .ok ()) :
    x.parse p = (.ok (), { x with parser := (Parser.parse p ⟨x.parser, Sink.mem⟩).2.p },
      { p with media := (Parser.parse p ⟨x.parser, Sink.mem⟩).2.w.out }) := by
  unfold Mixer.parse
  rcases hx : Parser.parse p ⟨x.parser, Sink.mem⟩ with ⟨r, d⟩
  rw [hx] at h
  simp only at h
  subst h
  rfl

/-- `Mux`, if the packet is accepted by the codec parser. -/
theorem Mixer.mux_ok (x : Mixer) (p : Packet) (h : (Parser.parse p ⟨x.parser, Sink.mem⟩).1 = .ok ()) (q : Packet)
    (hq : q = { p with media := (Parser.parse p ⟨x.parser, Sink.mem⟩).2.w.out }) :
    x.mux p = ((Ts.mux q x.dts x.pts ⟨x.muxer, x.ts⟩).1,
      { x with parser := (Parser.parse p ⟨x.parser, Sink.mem⟩).2.p
               muxer := (Ts.mux q x.dts x.pts ⟨x.muxer, x.ts⟩).2.m
               ts := (Ts.mux q x.dts x.pts ⟨x.muxer, x.ts⟩).2.w }, q) := by
  subst hq
  unfold Mixer.mux
  rw [x.parse_ok p h]

/-- `Mux`, if the packet is not accepted by the codec parser. -/
theorem Mixer.mux_rejected (x : Mixer) (p : Packet) (h : (Parser.parse p ⟨x.parser, Sink.mem⟩).1 ≠ .ok ()) :
    x.mux p = ((Parser.parse p ⟨x.parser, Sink.mem⟩).1,
      { x with parser := (Parser.parse p ⟨x.parser, Sink.mem⟩).2.p }, p) := by
  unfold Mixer.mux Mixer.parse
  rcases hx : Parser.parse p ⟨x.parser, Sink.mem⟩ with ⟨r, d⟩
  rw [hx] at h
  cases r with
  | ok u => exact absurd rfl h
  | err e => rfl
  | panic => rfl
  | diverge => rfl

theorem Mixer.saveHeader_ok (x : Mixer) (p : Packet) (h : (Parser.parse p ⟨x.parser, Sink.mem⟩).1 = .ok ()) (q : Packet)
    (hq : q = { p with media := (Parser.parse p ⟨x.parser, Sink.mem⟩).2.w.out }) :
    x.saveHeader p = ((Ts.mux q 0 0 ⟨x.muxer, Sink.mem⟩).1,
      { x with parser := (Parser.parse p ⟨x.parser, Sink.mem⟩).2.p
               muxer := (Ts.mux q 0 0 ⟨x.muxer, Sink.mem⟩).2.m }, q) := by
  subst hq
  unfold Mixer.saveHeader
  rw [x.parse_ok p h]

theorem Mixer.saveHeader_rejected (x : Mixer) (p : Packet) (h : (Parser.parse p ⟨x.parser, Sink.mem⟩).1 ≠ .ok ()) :
    x.saveHeader p = ((Parser.parse p ⟨x.parser, Sink.mem⟩).1,
      { x with parser := (Parser.parse p ⟨x.parser, Sink.mem⟩).2.p }, p) := by
  unfold Mixer.saveHeader Mixer.parse
  rcases hx : Parser.parse p ⟨x.parser, Sink.mem⟩ with ⟨r, d⟩
  rw [hx] at h
  cases r with
  | ok u => exact absurd rfl h
  | err e => rfl
  | panic => rfl
  | diverge => rfl

/-! ## What a call does to the parts of a mixer -/

/-- What a call with a packet leaves alone. -/
theorem mux_parts (x : Mixer) (p : Packet) :
    (x.mux p).2.1.parser = (Parser.parse p ⟨x.parser, Sink.mem⟩).2.p ∧ (x.mux p).2.1.sync = x.sync ∧
    (x.mux p).2.1.dts = x.dts ∧ (x.mux p).2.1.pts = x.pts ∧ (x.mux p).2.1.types = x.types ∧
    (x.mux p).2.1.metadata = x.metadata ∧
    ((x.mux p).2.1.muxer = x.muxer ∨ ∃ q w, (x.mux p).2.1.muxer = (Ts.mux q x.dts x.pts ⟨x.muxer, w⟩).2.m) := by
  by_cases h : (Parser.parse p ⟨x.parser, Sink.mem⟩).1 = .ok ()
  · rw [x.mux_ok p h _ rfl]
    exact ⟨rfl, rfl, rfl, rfl, rfl, rfl, .inr ⟨_, _, rfl⟩⟩
  · rw [x.mux_rejected p h]
    exact ⟨rfl, rfl, rfl, rfl, rfl, rfl, .inl rfl⟩

theorem saveHeader_parts (x : Mixer) (p : Packet) :
    (x.saveHeader p).2.1.parser = (Parser.parse p ⟨x.parser, Sink.mem⟩).2.p ∧ (x.saveHeader p).2.1.sync = x.sync ∧
    (x.saveHeader p).2.1.dts = x.dts ∧ (x.saveHeader p).2.1.pts = x.pts ∧ (x.saveHeader p).2.1.types = x.types ∧
    (x.saveHeader p).2.1.metadata = x.metadata ∧ (x.saveHeader p).2.1.ts = x.ts ∧
    ((x.saveHeader p).2.1.muxer = x.muxer ∨ ∃ q w, (x.saveHeader p).2.1.muxer = (Ts.mux q 0 0 ⟨x.muxer, w⟩).2.m) := by
  by_cases h : (Parser.parse p ⟨x.parser, Sink.mem⟩).1 = .ok ()
  · rw [x.saveHeader_ok p h _ rfl]
    exact ⟨rfl, rfl, rfl, rfl, rfl, rfl, rfl, .inr ⟨_, _, rfl⟩⟩
  · rw [x.saveHeader_rejected p h]
    exact ⟨rfl, rfl, rfl, rfl, rfl, rfl, rfl, .inl rfl⟩

theorem tables_hist {m : Muxer} (h : Reach m) (d : Bytes) (mt : List Int) : Reach (tables d mt m).2 := by
  obtain ⟨a, b, h⟩ := h
  unfold tables
  rw [GoM.bind_apply]
  have h1 := Hist.sdt d h
  rcases hs : sdt d m with ⟨r, m1⟩
  rw [hs] at h1
  cases r with
  | err e => exact ⟨_, _, h1⟩
  | panic => exact ⟨_, _, h1⟩
  | diverge => exact ⟨_, _, h1⟩
  | ok s =>
    simp only
    rw [GoM.bind_apply]
    have h2 := Hist.pat h1
    rcases hp : pat m1 with ⟨r, m2⟩
    rw [hp] at h2
    cases r with
    | err e => exact ⟨_, _, h2⟩
    | panic => exact ⟨_, _, h2⟩
    | diverge => exact ⟨_, _, h2⟩
    | ok a' =>
      simp only
      rw [GoM.bind_apply]
      have h3 := Hist.pmt mt h2
      rcases hq : pmt mt m2 with ⟨r, m3⟩
      rw [hq] at h3
      cases r <;> exact ⟨_, _, h3⟩

theorem header_parts (x : Mixer) :
    x.setTsHeader.2.parser = x.parser ∧ x.setTsHeader.2.sync = x.sync ∧ x.setTsHeader.2.dts = x.dts ∧
    x.setTsHeader.2.pts = x.pts ∧ x.setTsHeader.2.types = x.types ∧ x.setTsHeader.2.metadata = x.metadata ∧
    x.setTsHeader.2.muxer = (tables x.metadata x.types.toSlice x.muxer).2 := by
  unfold Mixer.setTsHeader
  rcases tables x.metadata x.types.toSlice x.muxer with ⟨r, m⟩
  cases r <;> exact ⟨rfl, rfl, rfl, rfl, rfl, rfl, rfl⟩

theorem ticks_bounds (t : UInt32) : 0 ≤ ticks t ∧ ticks t < 2 ^ 32 := by
  unfold ticks
  have := (t * 90).toNat_lt
  constructor
  · omega
  · have e : (2 : Int) ^ 32 = 4294967296 := rfl
    rw [e]; omega

/-! ## The codec parser -/

/-- What a call does to the H.264 parser. -/
theorem codec_avc (p : Packet) (c : Parser.CodecParser) (w : Sink) :
    (avcConfig p → (Parser.parse p ⟨c, w⟩).2.p.h264.getD .new = (H264.parse p.media true ⟨c.h264.getD .new, w⟩).2.p) ∧
    (¬ avcConfig p → (Parser.parse p ⟨c, w⟩).2.p.h264.getD .new = c.h264.getD .new) := by
  obtain ⟨ty, ts, bl, si, hdr, data, media⟩ := p
  constructor
  · rintro ⟨ht, v, a, hh, hc, hs⟩
    simp only at ht hh
    subst ht hh
    unfold Parser.parse
    rw [if_neg (by simp), if_pos (show (0 : Int) = PktVideo from rfl)]
    simp only [Packet.asVideo, GoM.lift_ok_bind, hc, hs, if_true]
    rfl
  · intro hn
    unfold Parser.parse
    match hdr with
    | none => rw [if_pos rfl]; rfl
    | some ⟨vo, ao⟩ =>
      rw [if_neg (by simp)]
      by_cases t0 : ty = 0
      · subst t0
        rw [if_pos (show (0 : Int) = PktVideo from rfl)]
        match vo with
        | none => rfl
        | some v =>
          simp only [Packet.asVideo, GoM.lift_ok_bind]
          cases hx : v.isCodecAvc with
          | false => rfl
          | true =>
            rw [if_pos rfl]
            cases hq : v.isSeqHdr with
            | true => exact absurd ⟨rfl, v, ao, rfl, hx, hq⟩ hn
            | false =>
              obtain ⟨p', cs, r, he, -, h3, -, -⟩ := H264.parse_through media false (c.h264.getD .new)
              unfold Parser.onH264
              have hw := he w
              simp only
              rw [hw]
              simpa using h3 rfl
      · rw [if_neg (show ¬ ty = PktVideo from t0)]
        by_cases t1 : ty = 1
        · subst t1
          rw [if_pos (show (1 : Int) = PktAudio from rfl)]
          match ao with
          | none => rfl
          | some a =>
            simp only [Packet.asAudio, GoM.lift_ok_bind]
            cases a.isSoundAAC with
            | true => rfl
            | false => cases a.isSoundMP3 <;> rfl
        · rw [if_neg (show ¬ ty = PktAudio from t1)]; rfl

/-- What a call does to the AAC parser. -/
theorem codec_aac (p : Packet) (c : Parser.CodecParser) (w : Sink) :
    (aacConfig p → (Parser.parse p ⟨c, w⟩).2.p.aac = some (Aac.parse p.media 0 ⟨c.aac.getD .new, w⟩).2.p) ∧
    (¬ aacConfig p → ∀ a, c.aac = some a → (Parser.parse p ⟨c, w⟩).2.p.aac = some a) := by
  obtain ⟨ty, ts, bl, si, hdr, data, media⟩ := p
  constructor
  · rintro ⟨ht, v, a, hh, hc, hs⟩
    simp only at ht hh
    subst ht hh
    have hz : a.aacType = 0 := UInt8.toNat_inj.mp hs
    unfold Parser.parse
    rw [if_neg (by simp), if_neg (show ¬ (1 : Int) = PktVideo by decide), if_pos (show (1 : Int) = PktAudio from rfl)]
    simp only [Packet.asAudio, GoM.lift_ok_bind, hc, hz, if_true]
    rfl
  · intro hn a0 ha0
    unfold Parser.parse
    match hdr with
    | none => rw [if_pos rfl]; exact ha0
    | some ⟨vo, ao⟩ =>
      rw [if_neg (by simp)]
      by_cases t0 : ty = 0
      · subst t0
        rw [if_pos (show (0 : Int) = PktVideo from rfl)]
        match vo with
        | none => exact ha0
        | some v =>
          simp only [Packet.asVideo, GoM.lift_ok_bind]
          cases v.isCodecAvc with
          | false => exact ha0
          | true => exact ha0
      · rw [if_neg (show ¬ ty = PktVideo from t0)]
        by_cases t1 : ty = 1
        · subst t1
          rw [if_pos (show (1 : Int) = PktAudio from rfl)]
          match ao with
          | none => exact ha0
          | some a =>
            simp only [Packet.asAudio, GoM.lift_ok_bind]
            cases hx : a.isSoundAAC with
            | true =>
              rw [if_pos rfl]
              obtain ⟨p', cs, r, he, -, h3⟩ := Aac.parse_through media a.aacType a0
              unfold Parser.onAac
              have hw := he w
              simp only [ha0, Option.getD_some]
              rw [hw]
              have hz : a.aacType ≠ 0 := fun e => hn ⟨rfl, vo, a, rfl, hx, by rw [e]; rfl⟩
              simp only [h3 hz]
            | false => cases a.isSoundMP3 <;> exact ha0
        · rw [if_neg (show ¬ ty = PktAudio from t1)]; exact ha0

/-- The sample rate, if there is one, is positive. -/
theorem rate_pos (c : Parser.CodecParser) (hm : ∀ m, c.mp3 = some m → m.samplingFrequency ∈ [44100, 48000, 32000]) :
    (∃ r, c.sampleRate = .ok r ∧ 0 < r) ∨ c.sampleRate = .err .other := by
  unfold Parser.CodecParser.sampleRate
  match ha : c.aac, hb : c.mp3 with
  | none, none => exact .inr rfl
  | some a, _ =>
    obtain ⟨r, h1, h2⟩ := aacRate_table a
    refine .inl ⟨r, h1, ?_⟩
    rcases h2 with rfl | ⟨i, hi⟩
    · decide
    · have := aacRate_pos i r hi; omega
  | none, some m =>
    have := hm m hb
    refine .inl ⟨_, rfl, ?_⟩
    simp only [List.mem_cons, List.not_mem_nil, or_false] at this
    unfold Mp3.Parser.sampleRate
    rcases this with h | h | h <;> rw [h] <;> decide

/-! ## Invariant -/

/-- What holds of every reachable mixer. -/
structure MixInv (x : Mixer) (hs : List (Bytes × Bytes × Bytes)) : Prop where
  muxer : Reach x.muxer
  ms : x.sync.syncMs = 900
  num : 0 ≤ x.sync.frameNum
  start : 0 ≤ x.sync.frameDts ∧ x.sync.frameDts < 2 ^ 32
  h264 : SeqHdrs (x.parser.h264.getD .new) hs
  mp3 : ∀ m, x.parser.mp3 = some m → m.samplingFrequency ∈ [44100, 48000, 32000]
  dts : 0 ≤ x.dts ∧ x.dts < 2 ^ 33
  pts : 0 ≤ x.pts ∧ x.pts < 2 ^ 33

theorem seqHdrs_step {c : Parser.CodecParser} {hs} (h : SeqHdrs (c.h264.getD .new) hs) (p : Packet) (w : Sink) :
    (∀ sps pps ext, avcConfig p → Record p.media sps pps ext →
      SeqHdrs ((Parser.parse p ⟨c, w⟩).2.p.h264.getD .new) (hs ++ [(sps, pps, ext)])) ∧
    ((avcConfig p → ¬ ∃ sps pps ext, Record p.media sps pps ext) →
      SeqHdrs ((Parser.parse p ⟨c, w⟩).2.p.h264.getD .new) hs) := by
  obtain ⟨h1, h2⟩ := codec_avc p c w
  constructor
  · intro sps pps ext ha hr
    rw [h1 ha]
    exact .header w h hr
  · intro hn
    by_cases ha : avcConfig p
    · rw [h1 ha, C62_malformed _ _ _ (hn ha)]
      exact h
    · rw [h2 ha]; exact h

/-- Synchronising. -/
theorem sync_step (s : Sync) (hm : s.syncMs = 900) (hn : 0 ≤ s.frameNum) (hs : 0 ≤ s.frameDts ∧ s.frameDts < 2 ^ 32) (d rate : Int) (hr : 0 < rate)
    (hd : 0 ≤ d ∧ d < 2 ^ 32) : ∃ o s', syncAudioTs d rate s = (.ok o, s') ∧ s'.syncMs = 900 ∧ 0 ≤ s'.frameNum ∧
      (0 ≤ s'.frameDts ∧ s'.frameDts < 2 ^ 32) ∧ 0 ≤ o ∧ o - d ≤ 900 ∧ d - o ≤ 900 := by
  have hinc : 0 ≤ 92160000 / rate := Int.ediv_nonneg (by decide) (by omega)
  have hmul : 0 ≤ s.frameNum * (92160000 / rate) := Int.mul_nonneg hn hinc
  rw [sync_eq s d rate hr]
  simp only
  generalize s.frameNum * (92160000 / rate) = k at *
  split
  · exact ⟨_, _, rfl, hm, by simp only; omega, hs, by omega, by omega, by omega⟩
  · exact ⟨_, _, rfl, hm, by simp, hd, hd.1, by omega, by omega⟩

/-- The invariant for the parts that packets change. -/
theorem MixInv.of_packet {x y : Mixer} {hs} (h : MixInv x hs) (p : Packet) (hp : y.parser = (Parser.parse p ⟨x.parser, Sink.mem⟩).2.p)
    (h1 : y.sync = x.sync) (h2 : y.dts = x.dts) (h3 : y.pts = x.pts)
    (hmx : y.muxer = x.muxer ∨ ∃ q d t w, y.muxer = (Ts.mux q d t ⟨x.muxer, w⟩).2.m) :
    (∀ sps pps ext, avcConfig p → Record p.media sps pps ext → MixInv y (hs ++ [(sps, pps, ext)])) ∧
    ((avcConfig p → ¬ ∃ sps pps ext, Record p.media sps pps ext) → MixInv y hs) := by
  obtain ⟨s1, s2⟩ := seqHdrs_step h.h264 p Sink.mem
  have hre : Reach y.muxer := by
    obtain ⟨a, b, hh⟩ := h.muxer
    rcases hmx with e | ⟨q, d, t, w, e⟩
    · rw [e]; exact ⟨a, b, hh⟩
    · rw [e]; exact ⟨a, b, .mux q d t w hh⟩
  have hmp := (codec_audio p x.parser Sink.mem _ rfl).2.2.2.2 h.mp3
  constructor
  · intro sps pps ext ha hr
    exact ⟨hre, by rw [h1]; exact h.ms, by rw [h1]; exact h.num, by rw [h1]; exact h.start, by rw [hp]; exact s1 _ _ _ ha hr,
      by rw [hp]; exact hmp, by rw [h2]; exact h.dts, by rw [h3]; exact h.pts⟩
  · intro hn
    exact ⟨hre, by rw [h1]; exact h.ms, by rw [h1]; exact h.num, by rw [h1]; exact h.start, by rw [hp]; exact s2 hn,
      by rw [hp]; exact hmp, by rw [h2]; exact h.dts, by rw [h3]; exact h.pts⟩

/-- What `Update` does, in every reachable state. -/
theorem update_eq {x : Mixer} {hs} (h : MixInv x hs) (p : Packet) (a b : UInt32) :
    (p.type = 0 → x.update p a b = (.ok (), { x with dts := ticks a, pts := ticks a + ticks b })) ∧
    (p.type = 1 → (∃ o s, x.update p a b = (.ok (), { x with dts := o, pts := o, sync := s }) ∧ s.syncMs = 900 ∧ 0 ≤ s.frameNum ∧
        (0 ≤ s.frameDts ∧ s.frameDts < 2 ^ 32) ∧ 0 ≤ o ∧ o - ticks a ≤ 900 ∧ ticks a - o ≤ 900) ∨
      x.parser.sampleRate = .err .other ∧ x.update p a b = (.err .other, { x with dts := ticks a })) ∧
    (p.type ≠ 0 → p.type ≠ 1 → x.update p a b = (.ok (), { x with dts := ticks a })) := by
  unfold Mixer.update
  refine ⟨fun ht => ?_, fun ht => ?_, fun h0 h1 => ?_⟩
  · simp only; rw [if_pos (show p.type = PktVideo from ht)]
  · simp only
    rw [if_neg (by rw [ht]; decide), if_pos (show p.type = PktAudio from ht)]
    rcases rate_pos x.parser h.mp3 with ⟨r, hr, hpos⟩ | hr
    · obtain ⟨o, s, e, g1, g2, g3, g4, g5, g6⟩ := sync_step x.sync h.ms h.num h.start (ticks a) r hpos (ticks_bounds a)
      refine .inl ⟨o, s, ?_, g1, g2, g3, g4, g5, g6⟩
      rw [hr]
      simp only
      rw [e]
    · refine .inr ⟨hr, ?_⟩
      rw [hr]
  · simp only; rw [if_neg (show ¬ p.type = PktVideo from h0), if_neg (show ¬ p.type = PktAudio from h1)]

theorem MixInv.op {x : Mixer} {hs} (h : MixInv x hs) (o : MixOp) :
    (∀ p sps pps ext, o.packet = some p → avcConfig p → Record p.media sps pps ext → MixInv (o.after x) (hs ++ [(sps, pps, ext)])) ∧
    ((∀ p, o.packet = some p → avcConfig p → ¬ ∃ sps pps ext, Record p.media sps pps ext) → MixInv (o.after x) hs) := by
  have pk : ∀ p (y : Mixer), o.packet = some p → o.after x = y → ((∀ sps pps ext, avcConfig p → Record p.media sps pps ext → MixInv y (hs ++ [(sps, pps, ext)])) ∧
    ((avcConfig p → ¬ ∃ sps pps ext, Record p.media sps pps ext) → MixInv y hs)) →
      (∀ p sps pps ext, o.packet = some p → avcConfig p → Record p.media sps pps ext → MixInv (o.after x) (hs ++ [(sps, pps, ext)])) ∧
      ((∀ p, o.packet = some p → avcConfig p → ¬ ∃ sps pps ext, Record p.media sps pps ext) → MixInv (o.after x) hs) := by
    intro p y hp hy ⟨k1, k2⟩
    rw [hy]
    refine ⟨fun p' sps pps ext hp' => ?_, fun hn => k2 (hn p hp)⟩
    rw [hp] at hp'
    cases hp'
    exact k1 sps pps ext
  have nopk : o.packet = none → MixInv (o.after x) hs →
      (∀ p sps pps ext, o.packet = some p → avcConfig p → Record p.media sps pps ext → MixInv (o.after x) (hs ++ [(sps, pps, ext)])) ∧
      ((∀ p, o.packet = some p → avcConfig p → ¬ ∃ sps pps ext, Record p.media sps pps ext) → MixInv (o.after x) hs) := by
    intro hp hi
    refine ⟨fun p' sps pps ext hp' => ?_, fun _ => hi⟩
    rw [hp] at hp'
    cases hp'
  cases o with
  | setWriter w => exact nopk rfl ⟨h.muxer, h.ms, h.num, h.start, h.h264, h.mp3, h.dts, h.pts⟩
  | saveMetadata md => exact nopk rfl ⟨h.muxer, h.ms, h.num, h.start, h.h264, h.mp3, h.dts, h.pts⟩
  | mux p =>
    obtain ⟨e1, e2, e3, e4, -, -, e5⟩ := mux_parts x p
    exact pk p _ rfl rfl (h.of_packet p e1 e2 e3 e4 (e5.imp id fun ⟨q, w, e⟩ => ⟨q, _, _, w, e⟩))
  | saveAVC p =>
    obtain ⟨e1, e2, e3, e4, -, -, -, e5⟩ := saveHeader_parts { x with types := x.types.isVideo } p
    exact pk p _ rfl rfl (h.of_packet p e1 e2 e3 e4 (e5.imp id fun ⟨q, w, e⟩ => ⟨q, _, _, w, e⟩))
  | saveAAC p =>
    obtain ⟨e1, e2, e3, e4, -, -, -, e5⟩ := saveHeader_parts { x with types := x.types.isAudio } p
    exact pk p _ rfl rfl (h.of_packet p e1 e2 e3 e4 (e5.imp id fun ⟨q, w, e⟩ => ⟨q, _, _, w, e⟩))
  | header =>
    obtain ⟨e1, e2, e3, e4, -, -, e5⟩ := header_parts x
    refine nopk rfl ?_
    show MixInv x.setTsHeader.2 hs
    exact ⟨by rw [e5]; exact tables_hist h.muxer _ _, by rw [e2]; exact h.ms, by rw [e2]; exact h.num, by rw [e2]; exact h.start,
      by rw [e1]; exact h.h264, by rw [e1]; exact h.mp3, by rw [e3]; exact h.dts, by rw [e4]; exact h.pts⟩
  | update p a b =>
    obtain ⟨u0, u1, u2⟩ := update_eq h p a b
    have ta := ticks_bounds a
    have tb := ticks_bounds b
    have e32 : (2 : Int) ^ 32 = 4294967296 := rfl
    have e33 : (2 : Int) ^ 33 = 8589934592 := rfl
    refine nopk rfl ?_
    show MixInv (x.update p a b).2 hs
    by_cases h0 : p.type = 0
    · rw [u0 h0]
      exact ⟨h.muxer, h.ms, h.num, h.start, h.h264, h.mp3, by simp only; omega, by simp only; omega⟩
    by_cases h1 : p.type = 1
    · rcases u1 h1 with ⟨o, s, e, g1, g2, g3, g4, g5, g6⟩ | ⟨-, e⟩
      · rw [e]
        exact ⟨h.muxer, g1, g2, g3, h.h264, h.mp3, by simp only; omega, by simp only; omega⟩
      · rw [e]
        exact ⟨h.muxer, h.ms, h.num, h.start, h.h264, h.mp3, by simp only; omega, h.pts⟩
    · rw [u2 h0 h1]
      exact ⟨h.muxer, h.ms, h.num, h.start, h.h264, h.mp3, by simp only; omega, h.pts⟩

theorem MixHist.inv {x : Mixer} {hs} (h : MixHist x hs) : MixInv x hs := by
  induction h with
  | new w => exact ⟨⟨0, 0, .new⟩, rfl, show (0 : Int) ≤ 0 by decide, show (0 : Int) ≤ 0 ∧ (0 : Int) < 2 ^ 32 by decide, .new,
    by simp [Mixer.new, Parser.CodecParser.new], show (0 : Int) ≤ 0 ∧ (0 : Int) < 2 ^ 33 by decide, show (0 : Int) ≤ 0 ∧ (0 : Int) < 2 ^ 33 by decide⟩
  | record o p sps pps ext _ hp ha hr ih => exact (ih.op o).1 p sps pps ext hp ha hr
  | other o _ hn ih => exact (ih.op o).2 hn

/-- Any call leads from reachable mixers to reachable mixers. -/
theorem MixReach.op {x : Mixer} (h : MixReach x) (o : MixOp) : MixReach (o.after x) := by
  obtain ⟨hs, h⟩ := h
  by_cases hr : ∃ p sps pps ext, o.packet = some p ∧ avcConfig p ∧ Record p.media sps pps ext
  · obtain ⟨p, sps, pps, ext, h1, h2, h3⟩ := hr
    exact ⟨_, .record o p sps pps ext h h1 h2 h3⟩
  · exact ⟨_, .other o h fun p h1 h2 ⟨sps, pps, ext, h3⟩ => hr ⟨p, sps, pps, ext, h1, h2, h3⟩⟩

end Verif.Ts
