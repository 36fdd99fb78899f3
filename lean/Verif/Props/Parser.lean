import Verif.Lemmas.Parser
import Verif.Lemmas.Flv
/-!
# Properties C59–C68, C93–C95: H.264, AAC and MP3 parsers

The formats are in `Verif/Spec/Parser.lean`, the reachable states in `Verif/Spec/ParserHistory.lean`.
-/
namespace Verif.Props
open Verif

section Es
open Verif.Spec.Es

/-! ## C59 -/

theorem avcc_take (nals : List Bytes) (h : ∀ n ∈ nals, Supported n) (hne : nals ≠ [])
    (h1 : ∀ n, nals.head? = some n → n.length ≠ 1) : avcc nals ≠ [] ∧ (avcc nals).take 4 ≠ [0, 0, 0, 1] := by
  match nals, hne with
  | n :: ns, _ =>
    have hs := h n (by simp)
    obtain ⟨a, b, c, d, hb, hv⟩ := H264.nat_four n.length hs.2.1
    have : avcc (n :: ns) = a :: b :: c :: d :: (n ++ avcc ns) := by simp [avcc, hb]
    rw [this]
    refine ⟨by simp, fun e => h1 n rfl ?_⟩
    simp only [List.take_succ_cons, List.take_zero, List.cons.injEq, and_true] at e
    obtain ⟨rfl, rfl, rfl, rfl⟩ := e
    rw [← hv]; rfl

/-- The units of a packet come out as an Annex-B access unit; the parameter sets saved from sequence headers
are used when the packet brings none before its first IDR unit. -/
theorem C59_annexb (p : H264.Parser) (hs : List (Bytes × Bytes × Bytes)) (hp : SeqHdrs p hs)
    (nals : List Bytes) (h : ∀ n ∈ nals, Supported n) (hne : nals ≠ [])
    (h1 : ∀ n, nals.head? = some n → n.length ≠ 1) (w : Sink) (hw : w.Reliable) :
    ∃ w', H264.parse (avcc nals) false ⟨p, w⟩ = (.ok (), ⟨p, w'⟩) ∧
      w'.out = w.out ++ accessUnit (annexB (hs.flatMap fun x => [x.1, x.2.1 ++ x.2.2])) nals := by
  obtain ⟨g1, g2⟩ := avcc_take nals h hne h1
  obtain ⟨cs, he, hc⟩ := H264.getAnnexb_avcc p nals hne h
  rw [H264.parse_data _ _ g1 g2, Dev.onW_apply, he.reliable w hw]
  exact ⟨_, rfl, by rw [← H264.seqHdrs_info hp, ← hc]⟩

/-- SEI, slice, delimiter, SPS, PPS, IDR, slice: the delimiter is dropped, the parameter sets move just before
the IDR unit, which is where they were. -/
example : (H264.parse (avcc [[6, 1], [0x41, 9], [9, 0x30], [0x67, 1, 2], [0x68, 3], [0x65, 7, 7], [1, 4]]) false
    ⟨.new, .mem⟩).2.w.out =
    [0, 0, 0, 1, 9, 0xf0, 0, 0, 0, 1, 6, 1, 0, 0, 0, 1, 0x41, 9, 0, 0, 0, 1, 0x67, 1, 2, 0, 0, 0, 1, 0x68, 3,
      0, 0, 0, 1, 0x65, 7, 7, 0, 0, 0, 1, 1, 4] := by decide +kernel

example : (∀ n ∈ [[6, 1], [0x41, 9], [9, 0x30], [0x67, 1, 2], [0x68, 3], [0x65, 7, 7], [1, 4]], Supported n) ∧
    accessUnit [5, 5] [[6, 1], [0x41, 9], [9, 0x30], [0x67, 1, 2], [0x68, 3], [0x65, 7, 7], [1, 4]] =
    [0, 0, 0, 1, 9, 0xf0, 0, 0, 0, 1, 6, 1, 0, 0, 0, 1, 0x41, 9, 0, 0, 0, 1, 0x67, 1, 2, 0, 0, 0, 1, 0x68, 3,
      0, 0, 0, 1, 0x65, 7, 7, 0, 0, 0, 1, 1, 4] ∧
    accessUnit [5, 5] [[1, 4], [0x65, 7], [0x67, 1], [0x65, 8]] =
    [0, 0, 0, 1, 9, 0xf0, 0, 0, 0, 1, 1, 4, 5, 5, 0, 0, 0, 1, 0x65, 7, 0, 0, 0, 1, 0x65, 8] := by
  refine ⟨?_, by decide +kernel, by decide +kernel⟩
  intro n hn
  simp only [List.mem_cons, List.not_mem_nil, or_false] at hn
  rcases hn with rfl | rfl | rfl | rfl | rfl | rfl | rfl <;> exact ⟨by simp, by decide, by decide⟩

/-! ## C60 -/

/-- Data packets are accepted exactly when they are a sequence of length-prefixed supported units. -/
theorem C60_accepts_iff (p : H264.Parser) (b : Bytes) (hb : b.take 4 ≠ [0, 0, 0, 1]) (w : Sink) (hw : w.Reliable) :
    (H264.parse b false ⟨p, w⟩).1 = .ok () ↔ ∃ nals, b = avcc nals ∧ nals ≠ [] ∧ ∀ n ∈ nals, Supported n := by
  constructor
  · intro h
    by_cases h0 : b = []
    · subst h0; cases h
    obtain ⟨cs, r, he, hr⟩ := H264.getAnnexb_total p b
    rw [H264.parse_data _ _ h0 hb, Dev.onW_apply, he.reliable w hw] at h
    rcases hr with rfl | ⟨_, hr⟩
    · cases h
    · exact hr
  · rintro ⟨nals, rfl, hne, hn⟩
    have h0 : avcc nals ≠ [] := by
      intro e; have := H264.avcc_ge nals hne; rw [e] at this; simp at this
    obtain ⟨cs, he, hc⟩ := H264.getAnnexb_avcc p nals hne hn
    rw [H264.parse_data _ _ h0 hb, Dev.onW_apply, he.reliable w hw]

/-- No input, kind of packet, parser state or writer makes the H.264 parser panic or loop. -/
theorem C60_no_panic (b : Bytes) (q : Bool) (s : Dev H264.Parser) :
    (H264.parse b q s).1 ≠ .panic ∧ (H264.parse b q s).1 ≠ .diverge := by
  obtain ⟨p, w⟩ := s
  obtain ⟨p', cs, r, he, hr, _⟩ := H264.parse_through b q p
  rw [he w]
  obtain ⟨_, _, _, _, _, h⟩ := runChunks_any cs w
  rw [GoM.bind_apply]
  rcases hc : runChunks cs w with ⟨x, w'⟩
  rw [hc] at h
  rcases h with ⟨h, _⟩ | h <;> simp only at h <;> subst h
  · rcases hr with rfl | rfl <;> simp
  · simp

/-- A packet of two units, one whose last unit is cut short, one with a type 2 unit, one with an empty unit. -/
example : (H264.parse [0, 0, 0, 2, 0x65, 1, 0, 0, 0, 1, 6] false ⟨.new, .mem⟩).1 = .ok () ∧
    (H264.parse [0, 0, 0, 2, 0x65, 1, 0, 0, 0, 2, 6] false ⟨.new, .mem⟩).1 = .err .other ∧
    (H264.parse [0, 0, 0, 2, 0x65, 1, 0, 0, 0, 1, 2] false ⟨.new, .mem⟩).1 = .err .other ∧
    (H264.parse [0, 0, 0, 2, 0x65, 1, 0, 0, 0, 0] false ⟨.new, .mem⟩).1 = .err .other := by decide +kernel

/-! ## C61 -/

/-- Data that already begins with a start code is copied. -/
theorem C61_passthrough (b : Bytes) (p : H264.Parser) (w : Sink) (hw : w.Reliable) :
    ∃ w', H264.parse ([0, 0, 0, 1] ++ b) false ⟨p, w⟩ = (.ok (), ⟨p, w'⟩) ∧ w'.out = w.out ++ ([0, 0, 0, 1] ++ b) := by
  rw [H264.parse_start _ _ (by simp), Dev.onW_apply, (Emits.write _).reliable w hw]
  exact ⟨_, rfl, by simp⟩

example : (H264.parse [0, 0, 0, 1, 0x65, 0x23] false ⟨.new, .mem⟩).2.w.out = [0, 0, 0, 1, 0x65, 0x23] := by
  decide +kernel

/-! ## C62, C63 -/

theorem record_ne {b sps pps ext : Bytes} (h : Record b sps pps ext) : b ≠ [] := by
  obtain ⟨_, _, _, _, v, pr, co, le, ls, ns, np, rfl⟩ := h; simp [avcRecord]

/-- Partial: proved when nothing follows the PPS in the record (`C62_extension_refuted` shows the other case)
and when it is the first sequence header (C63).  The record is accepted without output, and the next IDR unit
comes out behind exactly its SPS and PPS. -/
theorem C62_seq_header_partial (p : H264.Parser) (hp : SeqHdrs p []) (b sps pps : Bytes) (hb : Record b sps pps [])
    (idr : Bytes) (hi : Supported idr) (ht : unitType idr = 5) (hl : idr.length ≠ 1) (w w2 : Sink) (hw : w2.Reliable) :
    (H264.parse b true ⟨p, w⟩).1 = .ok () ∧ (H264.parse b true ⟨p, w⟩).2.w = w ∧
    (H264.parse (avcc [idr]) false ⟨(H264.parse b true ⟨p, w⟩).2.p, w2⟩).2.w.out =
      w2.out ++ ([0, 0, 0, 1, 9, 0xf0] ++ annexB [sps, pps, idr]) := by
  have hq := SeqHdrs.header w hp hb
  refine ⟨?_, ?_, ?_⟩
  · rw [H264.parse_hdr _ _ (record_ne hb), H264.parseSpecific_ok p b _ _ _ hb]
  · rw [H264.parse_hdr _ _ (record_ne hb)]
  · obtain ⟨w', h1, h2⟩ := C59_annexb _ _ hq [idr] (by simpa using hi) (by simp) (by simpa using hl) w2 hw
    rw [h1]
    simp only
    rw [h2]
    simp [accessUnit, params, annexB, isIdr, isPicture, ht]

/-- A record that is not well-formed is rejected; a rejected call changes neither the parser nor the output. -/
theorem C62_malformed (p : H264.Parser) (b : Bytes) (w : Sink) (h : ¬ ∃ sps pps ext, Record b sps pps ext) :
    H264.parse b true ⟨p, w⟩ = (.err .other, ⟨p, w⟩) := by
  by_cases h0 : b = []
  · subst h0; rfl
  rcases H264.parseSpecific_cases p b with e | e
  · rw [H264.parse_hdr _ _ h0, e]
  · exact absurd e h

/-- Bytes behind the PPS, which the records of High profile streams contain, become part of the PPS. -/
theorem C62_extension_refuted (p : H264.Parser) (hp : SeqHdrs p []) (b sps pps ext : Bytes) (hb : Record b sps pps ext)
    (idr : Bytes) (hi : Supported idr) (ht : unitType idr = 5) (hl : idr.length ≠ 1) (w w2 : Sink) (hw : w2.Reliable)
    (hx : ext ≠ []) :
    (H264.parse b true ⟨p, w⟩).1 = .ok () ∧
    (H264.parse (avcc [idr]) false ⟨(H264.parse b true ⟨p, w⟩).2.p, w2⟩).2.w.out =
      w2.out ++ ([0, 0, 0, 1, 9, 0xf0] ++ annexB [sps, pps ++ ext, idr]) ∧
    annexB [sps, pps ++ ext, idr] ≠ annexB [sps, pps, idr] := by
  have hq := SeqHdrs.header w hp hb
  refine ⟨?_, ?_, ?_⟩
  · rw [H264.parse_hdr _ _ (record_ne hb), H264.parseSpecific_ok p b _ _ _ hb]
  · obtain ⟨w', h1, h2⟩ := C59_annexb _ _ hq [idr] (by simpa using hi) (by simp) (by simpa using hl) w2 hw
    rw [h1]
    simp only
    rw [h2]
    simp [accessUnit, params, annexB, isIdr, isPicture, ht]
  · intro e
    have := congrArg List.length e
    simp [annexB] at this
    exact hx this

/-- The record of the repository's test, and the same with the four extension bytes of the High profile. -/
example : Record [1, 0x4d, 0, 0x1e, 0xff, 0xe1, 0, 3, 0x67, 0x4d, 0, 1, 0, 2, 0x68, 0xde] [0x67, 0x4d, 0] [0x68, 0xde] [] ∧
    Record [1, 0x64, 0, 0x1e, 0xff, 0xe1, 0, 3, 0x67, 0x64, 0, 1, 0, 2, 0x68, 0xde, 0xfd, 0xf8, 0xf8, 0]
      [0x67, 0x64, 0] [0x68, 0xde] [0xfd, 0xf8, 0xf8, 0] ∧ Supported [0x65, 0x23] ∧ unitType [0x65, 0x23] = 5 :=
  ⟨⟨by simp, by decide, by simp, by decide, 1, 0x4d, 0, 0x1e, 0xff, 0xe1, 1, by decide⟩,
   ⟨by simp, by decide, by simp, by decide, 1, 0x64, 0, 0x1e, 0xff, 0xe1, 1, by decide⟩,
   ⟨by simp, by decide, by decide⟩, by decide⟩

/-- Partial: the parameter sets of the only sequence header are used (see C62).  With a second one, both sets
are emitted: this holds for every pair of records, so the property is refuted for all of them. -/
theorem C63_replace_refuted (p : H264.Parser) (hp : SeqHdrs p []) (b1 b2 s1 p1 s2 p2 : Bytes) (h1 : Record b1 s1 p1 [])
    (h2 : Record b2 s2 p2 []) (idr : Bytes) (hi : Supported idr) (ht : unitType idr = 5) (hl : idr.length ≠ 1)
    (w w2 w3 : Sink) (hw : w3.Reliable) (q : H264.Parser) (hq : q = (H264.parse b1 true ⟨p, w⟩).2.p)
    (q' : H264.Parser) (hq' : q' = (H264.parse b2 true ⟨q, w2⟩).2.p) :
    (H264.parse (avcc [idr]) false ⟨q', w3⟩).2.w.out =
      w3.out ++ ([0, 0, 0, 1, 9, 0xf0] ++ annexB [s1, p1, s2, p2, idr]) ∧
    annexB [s1, p1, s2, p2, idr] ≠ annexB [s2, p2, idr] := by
  have hq2 := SeqHdrs.header w2 (SeqHdrs.header w hp h1) h2
  subst hq hq'
  constructor
  · obtain ⟨w', h1, h2⟩ := C59_annexb _ _ hq2 [idr] (by simpa using hi) (by simp) (by simpa using hl) w3 hw
    rw [h1]
    simp only
    rw [h2]
    simp [accessUnit, params, annexB, isIdr, isPicture, ht]
  · intro e
    have := congrArg List.length e
    simp [annexB] at this
    omega

/-- Partial: in any history the parameter sets emitted are those of all accepted sequence headers in order, so
the most recent ones come last, directly before the IDR unit; and they are the only ones if there was just one
sequence header.  Missing: the earlier sets should not be there (`C63_replace_refuted`). -/
theorem C63_replace_partial (p : H264.Parser) (hs : List (Bytes × Bytes × Bytes)) (hp : SeqHdrs p hs) (sps pps : Bytes)
    (b : Bytes) (hb : Record b sps pps []) (w : Sink) (idr : Bytes) (hi : Supported idr) (ht : unitType idr = 5)
    (hl : idr.length ≠ 1) (w2 : Sink) (hw : w2.Reliable) :
    ∃ earlier, (H264.parse (avcc [idr]) false ⟨(H264.parse b true ⟨p, w⟩).2.p, w2⟩).2.w.out =
      w2.out ++ [0, 0, 0, 1, 9, 0xf0] ++ earlier ++ annexB [sps, pps, idr] ∧ (hs = [] → earlier = []) := by
  have hq := SeqHdrs.header w hp hb
  obtain ⟨w', h1, h2⟩ := C59_annexb _ _ hq [idr] (by simpa using hi) (by simp) (by simpa using hl) w2 hw
  refine ⟨annexB (hs.flatMap fun x => [x.1, x.2.1 ++ x.2.2]), ?_, fun e => by subst e; rfl⟩
  rw [h1]
  simp only
  rw [h2]
  simp [accessUnit, params, annexB, isIdr, isPicture, ht]

/-! ## C64 -/

/-- After a configuration the frame comes out behind an ADTS header that says what the configuration said. -/
theorem C64_adts (s : Dev Aac.Parser) (o i c l : Nat) (ho : 1 ≤ o ∧ o ≤ 4) (hi : i < 13) (hc : c ≤ 7) (hl : l < 8)
    (extra : Bytes) (frame : Bytes) (hf : frame ≠ []) (hn : frame.length ≤ 8184) (w : Sink) (hw : w.Reliable)
    (p : Aac.Parser) (hp : p = (Aac.parse (audioConfig o i c l ++ extra) 0 s).2.p) :
    (Aac.parse (audioConfig o i c l ++ extra) 0 s).1 = .ok () ∧
    (Aac.parse (audioConfig o i c l ++ extra) 0 s).2.w = s.w ∧
    ∃ w' hdr, Aac.parse frame 1 ⟨p, w⟩ = (.ok (), ⟨p, w'⟩) ∧ w'.out = w.out ++ (hdr ++ frame) ∧ hdr.length = 7 ∧
      readAdts (hdr ++ frame) = some
        ({ mpeg4 := true, layer := 0, crcAbsent := true, profile := o - 1, rateIndex := i, privateBit := 0
           channels := c, frameLength := 7 + frame.length, blocks := 0 }, frame) := by
  obtain ⟨b0, b1, hb, h1, h2, h3⟩ := Aac.config_fields o i c l (by omega) (by omega) (by omega) hl
  have e := Aac.specific_eq b0 b1 extra s
  rw [h1, h2, h3] at e
  rw [hb] at hp ⊢
  simp only [List.cons_append, List.nil_append] at hp ⊢
  rw [e] at hp ⊢
  refine ⟨?_, rfl, ?_⟩
  · rw [if_neg]
    intro h
    have := congrArg UInt8.toNat h
    rw [UInt8.toNat_ofNat', show (0xf : UInt8).toNat = 15 from rfl] at this
    omega
  · subst hp
    refine ⟨_, _, by
      rw [Aac.raw_eq _ _ hf rfl, Dev.onW_apply, ((Emits.write _).bind (Emits.write frame)).reliable w hw],
      by simp; rfl, rfl, ?_⟩
    rw [Aac.readAdts_header _ _ _ (by simp; omega) (by simp; omega)]
    simp only [UInt8.toNat_ofNat']
    congr 3 <;> omega

/-- Raw frames leave the configuration in place, so the above holds for every later frame too. -/
theorem C64_raw_keeps (frame : Bytes) (s : Dev Aac.Parser) : (Aac.parse frame 1 s).2.p = s.p := by
  obtain ⟨p', cs, r, he, _, h⟩ := Aac.parse_through frame 1 s.p
  have := he s.w
  rw [this]
  exact h (by decide)

/-- The vector of the repository's test: AAC-LC, 44.1 kHz, stereo. -/
example : audioConfig 2 4 2 0 = [0x12, 0x10] ∧
    (Aac.parse [0x21, 0x00, 0x49, 0x90, 0x02, 0x19, 0x00, 0x23, 0x80] 1 (Aac.parse [0x12, 0x10] 0 ⟨.new, .mem⟩).2).2.w.out =
      [0xff, 0xf1, 0x50, 0x80, 0x02, 0x1f, 0xfc, 0x21, 0x00, 0x49, 0x90, 0x02, 0x19, 0x00, 0x23, 0x80] := by
  decide +kernel

/-! ## C65 -/

/-- Empty data is rejected without any effect. -/
theorem C65_empty (t : UInt8) (s : Dev Aac.Parser) : Aac.parse [] t s = (.err .other, s) := rfl

/-- Unknown packet types are rejected without any effect. -/
theorem C65_unknown (b : Bytes) (t : UInt8) (h0 : t ≠ 0) (h1 : t ≠ 1) (s : Dev Aac.Parser) :
    Aac.parse b t s = (.err .other, s) := Aac.other_eq b t s h0 h1

/-- As long as no configuration of at least two bytes was given, raw frames are rejected without any effect. -/
theorem C65_unconfigured (calls : List (Bytes × UInt8)) (h : ∀ c ∈ calls, c.2 = 0 → c.1.length < 2) (w w2 : Sink)
    (frame : Bytes) (p : Aac.Parser) (hp : p = (aacRun ⟨.new, w⟩ calls).p) :
    Aac.parse frame 1 ⟨p, w2⟩ = (.err .other, ⟨p, w2⟩) := by
  suffices hg : ∀ s : Dev Aac.Parser, s.p.gotSpecific = false → (aacRun s calls).p.gotSpecific = false from
    Aac.raw_unset frame ⟨p, w2⟩ (by subst hp; exact hg _ rfl)
  clear hp p
  induction calls with
  | nil => exact fun s hs => hs
  | cons c cs ih =>
    intro s hs
    obtain ⟨b, t⟩ := c
    have hc := h (b, t) (by simp)
    refine ih (fun x hx => h x (by simp [hx])) _ ?_
    by_cases t0 : t = 0
    · subst t0
      have hl := hc rfl
      match b, hl with
      | [], _ => exact hs
      | [x], _ => exact hs
      | x :: y :: r, hl => simp at hl; omega
    · obtain ⟨p', cs, r, he, _, h'⟩ := Aac.parse_through b t s.p
      have := he s.w
      simp only
      rw [show Aac.parse b t s = _ from this]
      rw [h' t0]
      exact hs

/-- No input, type, state or writer makes the AAC parser panic; an error other than the writer's leaves the
output alone. -/
theorem C65_no_panic (b : Bytes) (t : UInt8) (s : Dev Aac.Parser) :
    (Aac.parse b t s).1 ≠ .panic ∧ (Aac.parse b t s).1 ≠ .diverge ∧
    ((Aac.parse b t s).1 = .err .other → (Aac.parse b t s).2.w = s.w) := by
  obtain ⟨p, w⟩ := s
  obtain ⟨p', cs, r, he, hr, _⟩ := Aac.parse_through b t p
  rw [he w]
  obtain ⟨_, _, _, _, _, h⟩ := runChunks_any cs w
  rw [GoM.bind_apply]
  rcases hr with rfl | ⟨rfl, rfl⟩
  · rcases hc : runChunks cs w with ⟨x, w'⟩
    rw [hc] at h
    rcases h with ⟨h, _⟩ | h <;> simp only at h <;> subst h <;> simp
  · simp [runChunks]

example : (Aac.parse [1, 2, 3] 1 ⟨.new, .mem⟩).1 = .err .other ∧ (Aac.parse [1, 2, 3] 7 ⟨.new, .mem⟩).1 = .err .other ∧
    (Aac.parse [0x12] 0 ⟨.new, .mem⟩).1 = .err .other := by decide +kernel

/-! ## C66–C68: the codec parser -/

/-- The header answers the questions asked for its packet type. -/
def Typed (p : Packet) : Prop :=
  p.header = none ∨ (p.type = 0 → ∃ v, p.asVideo = .ok v) ∧ (p.type = 1 → ∃ a, p.asAudio = .ok a)

/-- Shape of every call. -/
theorem codec_through (p : Packet) (c : Parser.CodecParser) (hp : Typed p) :
    ∃ c' cs r, (∀ w, Parser.parse p ⟨c, w⟩ =
      (((runChunks cs >>= fun _ => GoM.lift r) w).1, ⟨c', ((runChunks cs >>= fun _ => GoM.lift r) w).2⟩)) ∧
      (r = .ok () ∨ r = .err .other) := by
  unfold Parser.parse
  by_cases h0 : p.header = none
  · exact ⟨c, [], .err .other, fun w => by rw [if_pos h0]; rfl, .inr rfl⟩
  rcases hp with hp | ⟨hv, ha⟩
  · exact absurd hp h0
  by_cases t0 : p.type = 0
  · obtain ⟨v, hv⟩ := hv t0
    cases hc : v.isCodecAvc with
    | false =>
      exact ⟨c, [], .err .other, fun w => by
        rw [if_neg h0, if_pos (show p.type = PktVideo from t0), hv, GoM.lift_ok_bind, hc]; rfl, .inr rfl⟩
    | true =>
      obtain ⟨p', cs, r, he, hr, _⟩ := H264.parse_through p.media v.isSeqHdr (c.h264.getD .new)
      refine ⟨{ c with h264 := some p' }, cs, r, fun w => ?_, hr⟩
      rw [if_neg h0, if_pos (show p.type = PktVideo from t0), hv, GoM.lift_ok_bind, if_pos hc, Parser.onH264]
      simp only
      rw [he w]
  by_cases t1 : p.type = 1
  · obtain ⟨a, ha⟩ := ha t1
    cases hc : a.isSoundAAC with
    | false =>
      cases hm : a.isSoundMP3 with
      | false =>
        exact ⟨c, [], .err .other, fun w => by
          rw [if_neg h0, if_neg (show ¬ p.type = PktVideo from t0), if_pos (show p.type = PktAudio from t1), ha,
            GoM.lift_ok_bind, hc, hm]; rfl, .inr rfl⟩
      | true =>
        refine ⟨{ c with mp3 := some (Mp3.parse p.media (c.mp3.getD .new)).2 }, [],
          (Mp3.parse p.media (c.mp3.getD .new)).1, fun w => ?_, ?_⟩
        · rw [if_neg h0, if_neg (show ¬ p.type = PktVideo from t0), if_pos (show p.type = PktAudio from t1), ha,
            GoM.lift_ok_bind, hc, if_neg (by simp), if_pos hm]; rfl
        · rcases Mp3.parse_cases p.media (c.mp3.getD .new) with h | ⟨r, _, h⟩ <;> rw [h] <;> simp
    | true =>
      obtain ⟨p', cs, r, he, hr, _⟩ := Aac.parse_through p.media a.aacType (c.aac.getD .new)
      refine ⟨{ c with aac := some p' }, cs, r, fun w => ?_, hr.imp id (·.1)⟩
      rw [if_neg h0, if_neg (show ¬ p.type = PktVideo from t0), if_pos (show p.type = PktAudio from t1), ha,
        GoM.lift_ok_bind, if_pos hc, Parser.onAac]
      simp only
      rw [he w]
  · exact ⟨c, [], .err .other, fun w => by
      rw [if_neg h0, if_neg (show ¬ p.type = PktVideo from t0), if_neg (show ¬ p.type = PktAudio from t1)]; rfl, .inr rfl⟩

/-- A header of another kind than the packet type makes the call panic before anything happens. -/
theorem codec_untyped (p : Packet) (hp : ¬ Typed p) (s : Dev Parser.CodecParser) : Parser.parse p s = (.panic, s) := by
  have h0 : p.header ≠ none := fun h => hp (.inl h)
  unfold Parser.parse
  rw [if_neg h0]
  have hv : (∃ v, p.asVideo = .ok v) ∨ p.asVideo = .panic := by
    unfold Packet.asVideo; split
    · split
      · exact .inl ⟨_, rfl⟩
      · exact .inr rfl
    · exact .inr rfl
  have ha : (∃ v, p.asAudio = .ok v) ∨ p.asAudio = .panic := by
    unfold Packet.asAudio; split
    · split
      · exact .inl ⟨_, rfl⟩
      · exact .inr rfl
    · exact .inr rfl
  by_cases t0 : p.type = 0
  · rcases hv with hv | hv
    · exact absurd (.inr ⟨fun _ => hv, fun t1 => absurd (t0.symm.trans t1) (by decide)⟩) hp
    · rw [if_pos (show p.type = PktVideo from t0), hv]; rfl
  by_cases t1 : p.type = 1
  · rcases ha with ha | ha
    · exact absurd (.inr ⟨fun h => absurd h t0, fun _ => ha⟩) hp
    · rw [if_neg (show ¬ p.type = PktVideo from t0), if_pos (show p.type = PktAudio from t1), ha]; rfl
  · exact absurd (.inr ⟨fun h => absurd h t0, fun h => absurd h t1⟩) hp

/-- What a call does to the audio parsers. -/
theorem codec_audio (p : Packet) (c : Parser.CodecParser) (w : Sink) (c' : Parser.CodecParser)
    (hc : c' = (Parser.parse p ⟨c, w⟩).2.p) :
    (audioPacket p = false → c'.aac = c.aac ∧ c'.mp3 = c.mp3) ∧
    (audioPacket p = true → c'.aac ≠ none ∨ c'.mp3 ≠ none) ∧
    (c.aac ≠ none → c'.aac ≠ none) ∧ (c.mp3 ≠ none → c'.mp3 ≠ none) ∧
    ((∀ m, c.mp3 = some m → m.samplingFrequency ∈ [44100, 48000, 32000]) →
      ∀ m, c'.mp3 = some m → m.samplingFrequency ∈ [44100, 48000, 32000]) := by
  have hid : ∀ b : Bool, audioPacket p = b → b = false → c' = c →
      (audioPacket p = false → c'.aac = c.aac ∧ c'.mp3 = c.mp3) ∧
      (audioPacket p = true → c'.aac ≠ none ∨ c'.mp3 ≠ none) ∧
      (c.aac ≠ none → c'.aac ≠ none) ∧ (c.mp3 ≠ none → c'.mp3 ≠ none) ∧
      ((∀ m, c.mp3 = some m → m.samplingFrequency ∈ [44100, 48000, 32000]) →
        ∀ m, c'.mp3 = some m → m.samplingFrequency ∈ [44100, 48000, 32000]) := by
    rintro b hb rfl rfl
    exact ⟨fun _ => ⟨rfl, rfl⟩, fun h => absurd (hb.symm.trans h) (by simp), id, id, id⟩
  obtain ⟨ty, ts, bl, si, hdr, data, media⟩ := p
  unfold Parser.parse at hc
  match hdr with
  | none => exact hid _ rfl (by simp [audioPacket]) (by rw [hc]; simp)
  | some ⟨vo, ao⟩ =>
    rw [if_neg (by simp)] at hc
    by_cases t0 : ty = 0
    · subst t0
      rw [if_pos (show (0 : Int) = PktVideo from rfl)] at hc
      have ha : audioPacket ⟨0, ts, bl, si, some ⟨vo, ao⟩, data, media⟩ = false := by simp [audioPacket]
      match vo with
      | none => exact hid _ rfl ha (by rw [hc]; rfl)
      | some v =>
        simp only [Packet.asVideo, GoM.lift_ok_bind] at hc
        cases hx : v.isCodecAvc with
        | false => exact hid _ rfl ha (by rw [hc, hx]; rfl)
        | true =>
          rw [if_pos hx] at hc
          have e1 : c'.aac = c.aac := by rw [hc]; rfl
          have e2 : c'.mp3 = c.mp3 := by rw [hc]; rfl
          rw [e1, e2, ha]
          exact ⟨fun _ => ⟨rfl, rfl⟩, by simp, id, id, id⟩
    rw [if_neg (show ¬ ty = PktVideo from t0)] at hc
    by_cases t1 : ty = 1
    · subst t1
      rw [if_pos (show (1 : Int) = PktAudio from rfl)] at hc
      match ao with
      | none => exact hid _ rfl (by simp [audioPacket]) (by rw [hc]; rfl)
      | some a =>
        simp only [Packet.asAudio, GoM.lift_ok_bind] at hc
        cases hx : a.isSoundAAC with
        | true =>
          rw [if_pos hx] at hc
          have e1 : c'.aac ≠ none := by rw [hc]; simp [Parser.onAac]
          have e2 : c'.mp3 = c.mp3 := by rw [hc]; rfl
          have ha : audioPacket ⟨1, ts, bl, si, some ⟨vo, some a⟩, data, media⟩ = true := by simp [audioPacket, hx]
          rw [e2, ha]
          exact ⟨by simp, fun _ => .inl e1, fun _ => e1, id, id⟩
        | false =>
          rw [if_neg (by simp [hx])] at hc
          cases hy : a.isSoundMP3 with
          | false => exact hid _ rfl (by simp [audioPacket, hx, hy]) (by rw [hc, hy]; rfl)
          | true =>
            rw [if_pos hy] at hc
            have e1 : c'.mp3 = some (Mp3.parse media (c.mp3.getD .new)).2 := by rw [hc]; rfl
            have e2 : c'.aac = c.aac := by rw [hc]; rfl
            have ha : audioPacket ⟨1, ts, bl, si, some ⟨vo, some a⟩, data, media⟩ = true := by simp [audioPacket, hy]
            rw [e2, e1, ha]
            refine ⟨by simp, fun _ => .inr (by simp), id, fun _ => by simp, fun hm m he => ?_⟩
            obtain rfl := Option.some.inj he
            rcases Mp3.parse_cases media (c.mp3.getD .new) with h | ⟨r, hr, h⟩ <;> rw [h]
            · cases hcm : c.mp3 with
              | none => simp [Mp3.Parser.new]
              | some m => exact hm m hcm
            · exact hr
    · rw [if_neg (show ¬ ty = PktAudio from t1)] at hc
      exact hid _ rfl (by simp [audioPacket, t1]) (by rw [hc]; rfl)

theorem codecRun_audio (calls : List (Packet × Sink)) (c0 c : Parser.CodecParser) (hc : c = codecRun c0 calls)
    (h0 : ∀ m, c0.mp3 = some m → m.samplingFrequency ∈ [44100, 48000, 32000]) :
    (c.aac = none ∧ c.mp3 = none ↔ (c0.aac = none ∧ c0.mp3 = none) ∧ ∀ x ∈ calls, audioPacket x.1 = false) ∧
    (∀ m, c.mp3 = some m → m.samplingFrequency ∈ [44100, 48000, 32000]) := by
  induction calls generalizing c0 with
  | nil => subst hc; simpa [codecRun] using h0
  | cons x xs ih =>
    obtain ⟨h1, h2, h3, h4, h5⟩ := codec_audio x.1 c0 x.2 _ rfl
    obtain ⟨g1, g2⟩ := ih _ hc (h5 h0)
    refine ⟨g1.trans ?_, g2⟩
    constructor
    · rintro ⟨⟨q1, q2⟩, q3⟩
      have hx : audioPacket x.1 = false := by
        cases ha : audioPacket x.1 with
        | false => rfl
        | true => rcases h2 ha with h | h <;> contradiction
      refine ⟨⟨?_, ?_⟩, ?_⟩
      · exact Classical.byContradiction fun hn => h3 hn q1
      · exact Classical.byContradiction fun hn => h4 hn q2
      · intro y hy
        rcases List.mem_cons.mp hy with rfl | hy
        · exact hx
        · exact q3 y hy
    · rintro ⟨⟨q1, q2⟩, q3⟩
      obtain ⟨e1, e2⟩ := h1 (q3 x (by simp))
      exact ⟨⟨e1.trans q1, e2.trans q2⟩, fun y hy => q3 y (by simp [hy])⟩

theorem aacRate_table (p : Aac.Parser) : ∃ r, p.sampleRate = .ok r ∧ (r = 44100 ∨ ∃ i, aacRate i = some r) := by
  unfold Aac.Parser.sampleRate
  split
  · rename_i h
    simp only [Aac.aacRates, List.length_cons, List.length_nil] at h
    generalize p.sampleRateIndex.toNat = i at h
    match i, h with
    | 0, _ => exact ⟨_, rfl, .inr ⟨0, rfl⟩⟩
    | 1, _ => exact ⟨_, rfl, .inr ⟨1, rfl⟩⟩
    | 2, _ => exact ⟨_, rfl, .inr ⟨2, rfl⟩⟩
    | 3, _ => exact ⟨_, rfl, .inr ⟨3, rfl⟩⟩
    | 4, _ => exact ⟨_, rfl, .inr ⟨4, rfl⟩⟩
    | 5, _ => exact ⟨_, rfl, .inr ⟨5, rfl⟩⟩
    | 6, _ => exact ⟨_, rfl, .inr ⟨6, rfl⟩⟩
    | 7, _ => exact ⟨_, rfl, .inr ⟨7, rfl⟩⟩
    | 8, _ => exact ⟨_, rfl, .inr ⟨8, rfl⟩⟩
    | 9, _ => exact ⟨_, rfl, .inr ⟨9, rfl⟩⟩
    | 10, _ => exact ⟨_, rfl, .inr ⟨10, rfl⟩⟩
    | 11, _ => exact ⟨_, rfl, .inr ⟨11, rfl⟩⟩
    | 12, _ => exact ⟨_, rfl, .inr ⟨12, rfl⟩⟩
  · exact ⟨_, rfl, .inl rfl⟩

theorem aacRate_pos (i : Nat) (r : Int) (h : aacRate i = some r) : 7350 ≤ r ∧ r ≤ 96000 := by
  unfold aacRate at h
  split at h <;> first | (obtain rfl := Option.some.inj h; decide) | cases h

/-- Partial: proved with "no AAC or MP3 packet was given" in place of "was accepted"
(`C66_rejected_refuted`).  The rate is one of the standard ones. -/
theorem C66_sample_rate_partial (calls : List (Packet × Sink)) (c : Parser.CodecParser) (hc : c = codecRun .new calls) :
    ((∃ e, c.sampleRate = .err e) ↔ ∀ x ∈ calls, audioPacket x.1 = false) ∧
    c.sampleRate ≠ .panic ∧ c.sampleRate ≠ .diverge ∧
    ∀ r, c.sampleRate = .ok r → 7350 ≤ r ∧ r ≤ 96000 ∧ ((∃ i, aacRate i = some r) ∨ r ∈ [44100, 48000, 32000]) := by
  obtain ⟨h1, h2⟩ := codecRun_audio calls .new c hc (by simp [Parser.CodecParser.new])
  simp only [show Parser.CodecParser.new.aac = none from rfl, show Parser.CodecParser.new.mp3 = none from rfl,
    and_self, true_and] at h1
  rw [← h1]
  unfold Parser.CodecParser.sampleRate
  match ha : c.aac, hm : c.mp3 with
  | none, none => simp
  | some a, m =>
    obtain ⟨r, hr, ht⟩ := aacRate_table a
    simp only [hr]
    refine ⟨by simp, by simp, by simp, fun r' e => ?_⟩
    obtain rfl := Res.ok.inj e
    rcases ht with rfl | ⟨i, hi⟩
    · simp
    · exact ⟨(aacRate_pos i _ hi).1, (aacRate_pos i _ hi).2, .inl ⟨i, hi⟩⟩
  | none, some m =>
    have := h2 m hm
    refine ⟨by simp, by simp, by simp, fun r' e => ?_⟩
    obtain rfl := Res.ok.inj e
    refine ⟨?_, ?_, .inr this⟩ <;>
    · simp only [List.mem_cons, List.not_mem_nil, or_false] at this
      simp only [Mp3.Parser.sampleRate]
      omega

theorem aacRate_index (i : Nat) (h : i < 13) : ∃ r, aacRate i = some r ∧ goIndex Aac.aacRates i = .ok r := by
  match i, h with
  | 0, _ => exact ⟨_, rfl, rfl⟩
  | 1, _ => exact ⟨_, rfl, rfl⟩
  | 2, _ => exact ⟨_, rfl, rfl⟩
  | 3, _ => exact ⟨_, rfl, rfl⟩
  | 4, _ => exact ⟨_, rfl, rfl⟩
  | 5, _ => exact ⟨_, rfl, rfl⟩
  | 6, _ => exact ⟨_, rfl, rfl⟩
  | 7, _ => exact ⟨_, rfl, rfl⟩
  | 8, _ => exact ⟨_, rfl, rfl⟩
  | 9, _ => exact ⟨_, rfl, rfl⟩
  | 10, _ => exact ⟨_, rfl, rfl⟩
  | 11, _ => exact ⟨_, rfl, rfl⟩
  | 12, _ => exact ⟨_, rfl, rfl⟩

/-- After a configuration was accepted, `SampleRate` is the rate the configuration names. -/
theorem C66_configured (c : Parser.CodecParser) (p : Packet) (v : Option VideoHdr) (a : AudioHdr) (w : Sink)
    (hh : p.header = some ⟨v, some a⟩) (ht : p.type = 1) (ha : a.isSoundAAC = true) (hz : a.aacType = 0)
    (o i ch l : Nat) (ho : o < 32) (hi : i < 13) (hc : ch < 16) (hl : l < 8) (extra : Bytes)
    (hm : p.media = audioConfig o i ch l ++ extra) :
    (Parser.parse p ⟨c, w⟩).1 = .ok () ∧ ∃ r, aacRate i = some r ∧ (Parser.parse p ⟨c, w⟩).2.p.sampleRate = .ok r := by
  obtain ⟨b0, b1, hb, h1, h2, h3⟩ := Aac.config_fields o i ch l ho (by omega) hc hl
  have e : Parser.parse p ⟨c, w⟩ = Parser.onAac (Aac.parse p.media a.aacType) ⟨c, w⟩ := by
    unfold Parser.parse
    rw [if_neg (by simp [hh]), if_neg (by rw [ht]; decide), if_pos (show p.type = PktAudio from ht)]
    simp only [Packet.asAudio, hh, GoM.lift_ok_bind, ha, if_true]
  have q := Aac.specific_eq b0 b1 extra ⟨c.aac.getD .new, w⟩
  rw [h1, h2, h3] at q
  have hne : ¬ UInt8.ofNat i = 0xf := by
    intro h
    have := congrArg UInt8.toNat h
    rw [UInt8.toNat_ofNat', show (0xf : UInt8).toNat = 15 from rfl] at this
    omega
  rw [if_neg hne] at q
  rw [e, hm, hb, hz, Parser.onAac]
  simp only [List.cons_append, List.nil_append, q, Parser.CodecParser.sampleRate, Aac.Parser.sampleRate]
  refine ⟨trivial, ?_⟩
  have hmod : (UInt8.ofNat i).toNat = i := by rw [UInt8.toNat_ofNat']; omega
  rw [hmod, if_pos (by simpa [Aac.aacRates] using hi)]
  exact aacRate_index i hi

/-- A raw AAC frame before any configuration is rejected, yet `SampleRate` then answers 96000. -/
theorem C66_rejected_refuted (p : Packet) (v : Option VideoHdr) (a : AudioHdr) (w : Sink)
    (hh : p.header = some ⟨v, some a⟩) (ht : p.type = 1) (ha : a.isSoundAAC = true) (hz : a.aacType = 1) :
    (Parser.parse p ⟨.new, w⟩).1 = .err .other ∧ (Parser.parse p ⟨.new, w⟩).2.p.sampleRate = .ok 96000 := by
  have e : Parser.parse p ⟨.new, w⟩ = Parser.onAac (Aac.parse p.media a.aacType) ⟨.new, w⟩ := by
    unfold Parser.parse
    rw [if_neg (by simp [hh]), if_neg (by rw [ht]; decide), if_pos (show p.type = PktAudio from ht)]
    simp only [Packet.asAudio, hh, GoM.lift_ok_bind, ha, if_true]
  rw [e, hz, Parser.onAac]
  simp only [show (Parser.CodecParser.new.aac.getD .new) = Aac.Parser.new from rfl,
    Aac.raw_unset p.media ⟨.new, w⟩ rfl]
  exact ⟨trivial, rfl⟩

/-- An AAC packet and its header as demuxed. -/
def aacHdr (t : UInt8) : Header :=
  { video := none, audio := some { soundFormat := 10, aacType := t, isSoundAAC := true, isSoundMP3 := false, isAACSeqHdr := t == 0 } }

example : audioPacket { type := 1, header := some (aacHdr 0), media := [0x12, 0x10] } = true ∧
    (codecRun .new [({ type := 1, header := some (aacHdr 0), media := [0x12, 0x10] }, .mem)]).sampleRate = .ok 44100 ∧
    Parser.CodecParser.new.sampleRate = .err .other := by decide +kernel

/-! ## C67 -/

/-- The two bits of the MPEG header. -/
theorem mp3Rate_bits (a b c : UInt8) (r : Bytes) : mp3Rate (a :: b :: c :: r) =
    (match c.toNat / 4 % 4 with
      | 0 => some 44100
      | 1 => some 48000
      | 2 => some 32000
      | _ => none) := by
  have h : bitsAt ((a :: b :: c :: r).take 4) 20 2 = c.toNat / 4 % 4 := by
    have := c.toNat_lt
    cases r with
    | nil => simp [bitsAt, Spec.Flv.nat]; omega
    | cons d r =>
      have := d.toNat_lt
      simp [bitsAt, Spec.Flv.nat]; omega
  unfold mp3Rate
  rw [h]
  rfl

/-- Partial: the rate is right when both sampling_frequency bits and the padding bit are zero.  Missing: all
other headers, for which `C67_mp3_rate_refuted` shows that the wrong bits are used. -/
theorem C67_mp3_rate_partial (a b c : UInt8) (r : Bytes) (p : Mp3.Parser) (h : c.toNat / 2 % 8 = 0) :
    ∃ x, mp3Rate (a :: b :: c :: r) = some x ∧ Mp3.parse (a :: b :: c :: r) p = (.ok (), ⟨x⟩) := by
  refine ⟨44100, ?_, ?_⟩
  · rw [mp3Rate_bits, show c.toNat / 4 % 4 = 0 by omega]; rfl
  · rw [Mp3.parse_eq, show c.toNat / 2 % 4 = 0 by omega]; rfl

/-- For every other valid header the call either fails or reports a different rate. -/
theorem C67_mp3_rate_refuted (a b c : UInt8) (r : Bytes) (p : Mp3.Parser) (x : Int)
    (hx : mp3Rate (a :: b :: c :: r) = some x) (h : c.toNat / 2 % 8 ≠ 0) :
    (Mp3.parse (a :: b :: c :: r) p).1 ≠ .ok () ∨ (Mp3.parse (a :: b :: c :: r) p).2.sampleRate ≠ x := by
  rw [mp3Rate_bits] at hx
  rw [Mp3.parse_eq]
  have h1 : c.toNat / 4 % 4 < 4 := Nat.mod_lt _ (by omega)
  have h2 : c.toNat / 2 % 4 < 4 := Nat.mod_lt _ (by omega)
  have h3 : c.toNat / 2 % 8 = c.toNat / 4 % 4 * 2 + c.toNat / 2 % 2 := by omega
  have h4 : c.toNat / 2 % 4 = c.toNat / 4 % 4 % 2 * 2 + c.toNat / 2 % 2 := by omega
  have h5 : c.toNat / 2 % 2 < 2 := Nat.mod_lt _ (by omega)
  rw [h4]
  rw [h3] at h
  generalize c.toNat / 4 % 4 = i at *
  generalize c.toNat / 2 % 2 = j at *
  match i, j, h1, h5 with
  | 0, 0, _, _ => omega
  | 0, 1, _, _ | 1, 0, _, _ | 1, 1, _, _ | 2, 0, _, _ | 2, 1, _, _ =>
    first
    | (left; intro e; cases e; done)
    | (simp at hx; subst hx; right; simp [Mp3.Parser.sampleRate])
  | 3, _, _, _ => cases hx

/-- A 48 kHz frame header `ff fb 94 00` is reported as 32 kHz. -/
example : mp3Rate [0xff, 0xfb, 0x94, 0] = some 48000 ∧
    (Mp3.parse [0xff, 0xfb, 0x94, 0] .new) = (.ok (), ⟨32000⟩) ∧
    mp3Rate [0xff, 0xfb, 0x90, 0] = some 44100 := by decide +kernel

/-! ## C68 -/

theorem demux_header (p : Packet) (h : (Flv.demux p).1 = .ok ()) :
    ∃ v a, (Flv.demux p).2.header = some ⟨some v, some a⟩ ∧ (Flv.demux p).2.type = p.type := by
  unfold Flv.demux at *
  rcases hp : Flv.parseMediaTagHeader p.data p.type {} with ⟨r, tag⟩
  rw [hp] at h
  match r with
  | .ok n =>
    simp only at h ⊢
    match hg : goSlice p.data n p.data.length with
    | .ok m => exact ⟨_, _, rfl, rfl⟩
    | .err e => rw [hg] at h; cases h
    | .panic => rw [hg] at h; cases h
    | .diverge => rw [hg] at h; cases h
  | .err e => cases h
  | .panic => cases h
  | .diverge => cases h

theorem typed_demux (p : Packet) (h : (Flv.demux p).1 = .ok ()) : Typed (Flv.demux p).2 := by
  obtain ⟨v, a, hh, _⟩ := demux_header p h
  exact .inr ⟨fun _ => ⟨v, by simp [Packet.asVideo, hh]⟩, fun _ => ⟨a, by simp [Packet.asAudio, hh]⟩⟩

/-- Parsing a demuxed packet never panics, whatever the state and the writer. -/
theorem C68_no_panic (p : Packet) (h : (Flv.demux p).1 = .ok ()) (c : Parser.CodecParser) (w : Sink) :
    (Parser.parse (Flv.demux p).2 ⟨c, w⟩).1 ≠ .panic ∧ (Parser.parse (Flv.demux p).2 ⟨c, w⟩).1 ≠ .diverge := by
  obtain ⟨c', cs, r, he, hr⟩ := codec_through _ c (typed_demux p h)
  rw [he w]
  obtain ⟨_, _, _, _, _, h⟩ := runChunks_any cs w
  rw [GoM.bind_apply]
  rcases hc : runChunks cs w with ⟨x, w'⟩
  rw [hc] at h
  rcases h with ⟨h, _⟩ | h <;> simp only at h <;> subst h
  · rcases hr with rfl | rfl <;> simp
  · simp

/-- AVC video goes to the H.264 parser, AAC to the AAC parser, MP3 to the MP3 parser. -/
theorem C68_routes (p : Packet) (v : VideoHdr) (a : AudioHdr) (hh : p.header = some ⟨some v, some a⟩)
    (c : Parser.CodecParser) (w : Sink) :
    (p.type = 0 → v.isCodecAvc = true → ∀ d, d = H264.parse p.media v.isSeqHdr ⟨c.h264.getD .new, w⟩ →
      Parser.parse p ⟨c, w⟩ = (d.1, ⟨{ c with h264 := some d.2.p }, d.2.w⟩)) ∧
    (p.type = 1 → a.isSoundAAC = true → ∀ d, d = Aac.parse p.media a.aacType ⟨c.aac.getD .new, w⟩ →
      Parser.parse p ⟨c, w⟩ = (d.1, ⟨{ c with aac := some d.2.p }, d.2.w⟩)) ∧
    (p.type = 1 → a.isSoundAAC = false → a.isSoundMP3 = true → ∀ d, d = Mp3.parse p.media (c.mp3.getD .new) →
      Parser.parse p ⟨c, w⟩ = (d.1, ⟨{ c with mp3 := some d.2 }, w⟩)) := by
  have h0 : ¬ p.header = none := by simp [hh]
  have hv : p.asVideo = .ok v := by simp [Packet.asVideo, hh]
  have ha : p.asAudio = .ok a := by simp [Packet.asAudio, hh]
  refine ⟨fun t hc d hd => ?_, fun t hc d hd => ?_, fun t hc hm d hd => ?_⟩
  all_goals
    unfold Parser.parse
    rw [if_neg h0]
    subst hd
  · rw [if_pos (show p.type = PktVideo from t), hv, GoM.lift_ok_bind, if_pos hc]; rfl
  · rw [if_neg (by rw [t]; decide), if_pos (show p.type = PktAudio from t), ha, GoM.lift_ok_bind, if_pos hc]; rfl
  · rw [if_neg (by rw [t]; decide), if_pos (show p.type = PktAudio from t), ha, GoM.lift_ok_bind, if_neg (by simp [hc]),
      if_pos hm]; rfl

/-- Everything else is rejected without any effect. -/
theorem C68_rejects (p : Packet) (v : VideoHdr) (a : AudioHdr) (hh : p.header = some ⟨some v, some a⟩)
    (hr : p.type ≠ 0 ∧ p.type ≠ 1 ∨ p.type = 0 ∧ v.isCodecAvc = false ∨
      p.type = 1 ∧ a.isSoundAAC = false ∧ a.isSoundMP3 = false) (s : Dev Parser.CodecParser) :
    Parser.parse p s = (.err .other, s) := by
  have h0 : ¬ p.header = none := by simp [hh]
  have hv : p.asVideo = .ok v := by simp [Packet.asVideo, hh]
  have ha : p.asAudio = .ok a := by simp [Packet.asAudio, hh]
  unfold Parser.parse
  rw [if_neg h0]
  rcases hr with ⟨h1, h2⟩ | ⟨t, hc⟩ | ⟨t, hc, hm⟩
  · rw [if_neg (show ¬ p.type = PktVideo from h1), if_neg (show ¬ p.type = PktAudio from h2)]; rfl
  · rw [if_pos (show p.type = PktVideo from t), hv, GoM.lift_ok_bind, hc]; rfl
  · rw [if_neg (by rw [t]; decide), if_pos (show p.type = PktAudio from t), ha, GoM.lift_ok_bind, hc, hm]; rfl

/-- A demuxed H.264 key frame, and a demuxed Sorenson (codec 2) frame. -/
example : (Flv.demux { type := 0, data := [0x17, 1, 0, 0, 0, 0, 0, 0, 2, 0x65, 9] }).1 = .ok () ∧
    (Parser.parse (Flv.demux { type := 0, data := [0x17, 1, 0, 0, 0, 0, 0, 0, 2, 0x65, 9] }).2 ⟨.new, .mem⟩).2.w.out =
      [0, 0, 0, 1, 9, 0xf0, 0, 0, 0, 1, 0x65, 9] ∧
    (Parser.parse (Flv.demux { type := 0, data := [0x12, 1, 0, 0, 0, 0, 0, 0, 2, 0x65, 9] }).2 ⟨.new, .mem⟩).1 =
      .err .other := by decide +kernel

/-! ## C93 -/

/-- A raw frame too long for the 13-bit length field is accepted with a wrong length: the property that such
frames are rejected is refuted for every one of them and every configured parser. -/
theorem C93_long_frame_refuted (p : Aac.Parser) (hg : p.gotSpecific = true) (hi : p.sampleRateIndex.toNat < 16)
    (hc : p.channel.toNat < 16) (frame : Bytes) (hl : 8184 < frame.length) (w : Sink) (hw : w.Reliable) :
    ∃ w' hdr x, Aac.parse frame 1 ⟨p, w⟩ = (.ok (), ⟨p, w'⟩) ∧ w'.out = w.out ++ (hdr ++ frame) ∧
      readAdts (hdr ++ frame) = some (x, frame) ∧ x.frameLength ≠ 7 + frame.length := by
  refine ⟨_, _, _, by
      rw [Aac.raw_eq _ _ (by intro e; rw [e] at hl; simp at hl) hg, Dev.onW_apply,
        ((Emits.write _).bind (Emits.write frame)).reliable w hw],
      by simp; rfl, Aac.readAdts_header _ _ _ hi hc, ?_⟩
  simp only
  omega

/-- A configuration with an audio object type ADTS cannot express (5, SBR, and up) is accepted, and frames are
then labelled with another profile. -/
theorem C93_object_type_refuted (s : Dev Aac.Parser) (o i c l : Nat) (ho : 5 ≤ o ∧ o < 32) (hi : i < 13) (hc : c ≤ 7)
    (hl : l < 8) (frame : Bytes) (hf : frame ≠ []) (w : Sink) (hw : w.Reliable)
    (p : Aac.Parser) (hp : p = (Aac.parse (audioConfig o i c l) 0 s).2.p) :
    (Aac.parse (audioConfig o i c l) 0 s).1 = .ok () ∧
    ∃ w' hdr x, Aac.parse frame 1 ⟨p, w⟩ = (.ok (), ⟨p, w'⟩) ∧ w'.out = w.out ++ (hdr ++ frame) ∧
      readAdts (hdr ++ frame) = some (x, frame) ∧ x.profile ≠ o - 1 := by
  obtain ⟨b0, b1, hb, h1, h2, h3⟩ := Aac.config_fields o i c l (by omega) (by omega) (by omega) hl
  have e := Aac.specific_eq b0 b1 [] s
  rw [h1, h2, h3] at e
  rw [hb] at hp ⊢
  rw [e] at hp ⊢
  refine ⟨?_, ?_⟩
  · rw [if_neg]
    intro h
    have := congrArg UInt8.toNat h
    rw [UInt8.toNat_ofNat', show (0xf : UInt8).toNat = 15 from rfl] at this
    omega
  · subst hp
    refine ⟨_, _, _, by
      rw [Aac.raw_eq _ _ hf rfl, Dev.onW_apply, ((Emits.write _).bind (Emits.write frame)).reliable w hw],
      by simp; rfl, Aac.readAdts_header _ _ _ (by simp; omega) (by simp; omega), ?_⟩
    simp only [UInt8.toNat_ofNat']
    omega

/-- Partial: a configuration is rejected exactly when its frequency index is 15.  Missing: object types above 4,
reserved frequency indices 13 and 14 and more than 7 channels should be rejected too, and frames above 8184
bytes. -/
theorem C93_rejects_partial (s : Dev Aac.Parser) (o i c l : Nat) (ho : o < 32) (hi : i < 16) (hc : c < 16) (hl : l < 8)
    (extra : Bytes) :
    (i = 15 → (Aac.parse (audioConfig o i c l ++ extra) 0 s).1 = .err .other) ∧
    (i ≠ 15 → (Aac.parse (audioConfig o i c l ++ extra) 0 s).1 = .ok ()) := by
  obtain ⟨b0, b1, hb, h1, h2, h3⟩ := Aac.config_fields o i c l ho hi hc hl
  rw [hb]
  simp only [List.cons_append, List.nil_append]
  rw [Aac.specific_eq, h2]
  constructor
  · rintro rfl; rfl
  · intro hne
    rw [if_neg]
    intro h
    have := congrArg UInt8.toNat h
    rw [UInt8.toNat_ofNat', show (0xf : UInt8).toNat = 15 from rfl] at this
    omega

example : (Aac.parse (audioConfig 5 4 2 0) 0 ⟨.new, .mem⟩).1 = .ok () ∧
    (readAdts (Aac.parse [1, 2] 1 (Aac.parse (audioConfig 5 4 2 0) 0 ⟨.new, .mem⟩).2).2.w.out).map (·.1.profile) =
      some 0 := by decide +kernel

/-! ## C94 -/

/-- The length-size field of the configuration record has no effect at all on the parser. -/
theorem C94_length_size_refuted (v pr co le ls ls' ns np : UInt8) (sps pps ext : Bytes) (s : Dev H264.Parser) :
    H264.parse (avcRecord v pr co le ls ns sps np pps ext) true s =
      H264.parse (avcRecord v pr co le ls' ns sps np pps ext) true s := by
  simp only [avcRecord]
  generalize hr : [v, pr, co, le] = pre
  have : ∀ x : UInt8, [v, pr, co, le, x, ns] = [v, pr, co, le] ++ x :: [ns] := fun _ => rfl
  rw [this, this]
  simp only [List.append_assoc, List.cons_append, List.nil_append]
  generalize Spec.Flv.beN 2 sps.length ++ (sps ++ (np :: (Spec.Flv.beN 2 pps.length ++ (pps ++ ext)))) = t
  rw [H264.parse_hdr _ _ (by simp), H264.parse_hdr _ _ (by simp)]
  have key : ∀ p, H264.parseSpecificInfo (v :: pr :: co :: le :: ls :: ns :: t) p =
      H264.parseSpecificInfo (v :: pr :: co :: le :: ls' :: ns :: t) p := by
    intro p
    have g6 : ∀ x : UInt8, goIndex (v :: pr :: co :: le :: x :: ns :: t) 6 = goIndex t 0 := by
      intro x; cases t <;> rfl
    have g7 : ∀ x : UInt8, goIndex (v :: pr :: co :: le :: x :: ns :: t) 7 = goIndex t 1 := by
      intro x
      match t with
      | [] | [_] | _ :: _ :: _ => rfl
    have gs : ∀ (x : UInt8) (a b : Int), 8 ≤ a → goSlice (v :: pr :: co :: le :: x :: ns :: t) a b =
        if 0 ≤ a ∧ a ≤ b ∧ b ≤ ((t.length + 6 : Nat) : Int) then .ok ((t.take (b.toNat - 6)).drop (a.toNat - 6)) else .panic := by
      intro x a b ha
      unfold goSlice
      simp only [List.length_cons]
      split
      · rename_i h
        obtain ⟨a', rfl⟩ : ∃ a' : Nat, a = ((a' + 6 : Nat) : Int) := ⟨a.toNat - 6, by omega⟩
        obtain ⟨b', rfl⟩ : ∃ b' : Nat, b = ((b' + 6 : Nat) : Int) := ⟨b.toNat - 6, by omega⟩
        simp only [Int.toNat_natCast, Nat.add_sub_cancel]
        rfl
      · rfl
    unfold H264.parseSpecificInfo
    simp only [g6, g7, List.length_cons]
    rw [gs ls 8 _ (by omega), gs ls' 8 _ (by omega)]
    have h8 : ∀ n : Nat, (8 : Int) ≤ 8 + (n : Int) := by intro n; omega
    simp only [gs ls 8 _ (by omega), gs ls' 8 _ (by omega), gs ls _ _ (h8 _), gs ls' _ _ (h8 _)]
  rw [key]

/-- Partial: after a record that announces four-byte lengths (low bits `11` of its fifth byte) the packets are split with four-byte
lengths: every unit comes out.  Missing: the other lengths (`C94_length_size_refuted`, `C94_short_lengths_refuted`). -/
theorem C94_length_size_partial (p : H264.Parser) (hs : List (Bytes × Bytes × Bytes)) (hp : SeqHdrs p hs)
    (v pr co le ls ns np : UInt8) (_hls : ls.toNat % 4 = 3) (sps pps ext : Bytes) (hb : Record (avcRecord v pr co le ls ns sps np pps ext) sps pps ext)
    (w : Sink) (nals : List Bytes) (h : ∀ n ∈ nals, Supported n) (hne : nals ≠ [])
    (h1 : ∀ n, nals.head? = some n → n.length ≠ 1) (w2 : Sink) (hw : w2.Reliable) :
    ∃ s', H264.parse (avcc nals) false ⟨(H264.parse (avcRecord v pr co le ls ns sps np pps ext) true ⟨p, w⟩).2.p, w2⟩ = (.ok (), s') ∧
      s'.w.out = w2.out ++ accessUnit (annexB ((hs ++ [(sps, pps, ext)]).flatMap fun x => [x.1, x.2.1 ++ x.2.2])) nals := by
  obtain ⟨w', h1, h2⟩ := C59_annexb _ _ (SeqHdrs.header w hp hb) nals h hne h1 w2 hw
  exact ⟨_, h1, h2⟩

/-- Units behind lengths of `k` bytes. -/
def shortAvcc (k : Nat) (nals : List Bytes) : Bytes := nals.flatMap fun n => Spec.Flv.beN k n.length ++ n

theorem nat_append (a b : Bytes) : Spec.Flv.nat (a ++ b) = Spec.Flv.nat a * 256 ^ b.length + Spec.Flv.nat b := by
  have : ∀ (b : Bytes) (x : Nat), b.foldl (fun acc y => acc * 256 + y.toNat) x = x * 256 ^ b.length + b.foldl (fun acc y => acc * 256 + y.toNat) 0 := by
    intro b
    induction b with
    | nil => simp
    | cons c t ih =>
      intro x
      rw [List.foldl_cons, ih, List.foldl_cons, ih (0 * 256 + c.toNat), List.length_cons, Nat.pow_succ, Nat.zero_mul, Nat.zero_add, Nat.add_mul, Nat.mul_assoc, Nat.mul_comm 256]
      omega
  unfold Spec.Flv.nat
  rw [List.foldl_append, this]

/-- C94 fails for one- and two-byte lengths: a packet with such lengths, whatever record came before, is rejected (unless it is more
than 2^24 or 2^16 times as long as its first unit). -/
theorem C94_short_lengths_refuted (p : H264.Parser) (k : Nat) (hk : k = 1 ∨ k = 2) (u : Bytes) (hu : u ≠ []) (hlt : u.length < 256 ^ k)
    (nals : List Bytes) (hl : (shortAvcc k (u :: nals)).length ≤ 256 ^ (4 - k) * u.length) (w : Sink) (hw : w.Reliable) :
    (H264.parse (shortAvcc k (u :: nals)) false ⟨p, w⟩).1 ≠ .ok () := by
  have hu0 : 0 < u.length := List.length_pos_iff.2 hu
  obtain ⟨x, hx⟩ : ∃ x, shortAvcc k (u :: nals) = Spec.Flv.beN k u.length ++ x := ⟨_, by simp [shortAvcc]; rfl⟩
  generalize shortAvcc k (u :: nals) = b at *
  have hn : 4 ≤ b.length → 256 ^ (4 - k) * u.length ≤ Spec.Flv.nat (b.take 4) := by
    intro h4
    have hb : b.length = k + x.length := by rw [hx, List.length_append, Spec.Flv.beN_length]
    have : b.take 4 = Spec.Flv.beN k u.length ++ x.take (4 - k) := by
      rw [hx, List.take_append, Spec.Flv.beN_length, List.take_of_length_le (by rw [Spec.Flv.beN_length]; omega)]
    rw [this, nat_append, Spec.Flv.nat_beN_lt k _ hlt, List.length_take, Nat.min_eq_left (by omega), Nat.mul_comm]
    exact Nat.le_add_right _ _
  have hp : 256 ≤ 256 ^ (4 - k) * u.length := by
    rcases hk with rfl | rfl <;> simp <;> omega
  have hb4 : b.take 4 ≠ [0, 0, 0, 1] := by
    intro h
    have h4 : 4 ≤ b.length := by have := congrArg List.length h; simp at this; omega
    have := hn h4
    rw [h, show Spec.Flv.nat [0, 0, 0, 1] = 1 from rfl] at this
    omega
  rw [Ne, C60_accepts_iff p b hb4 w hw]
  rintro ⟨ms, hms, hne, hsup⟩
  obtain ⟨m, ms, rfl⟩ := List.exists_cons_of_ne_nil hne
  have hm := (hsup m (by simp)).2.1
  have e : b = Spec.Flv.beN 4 m.length ++ (m ++ avcc ms) := by rw [hms]; simp [avcc]
  have hlen : b.length = 4 + (m.length + (avcc ms).length) := by rw [e, List.length_append, Spec.Flv.beN_length, List.length_append]
  have ht : b.take 4 = Spec.Flv.beN 4 m.length := by
    rw [e, List.take_append, Spec.Flv.beN_length, List.take_of_length_le (by rw [Spec.Flv.beN_length]; omega)]
    simp
  have := hn (by omega)
  rw [ht, Spec.Flv.nat_beN_lt 4 _ (by simpa using hm)] at this
  omega

/-- A record that announces two-byte lengths and a packet with such lengths. -/
example : (H264.parse (shortAvcc 2 [[0x65, 1, 2], [0x41, 7]]) false
      ⟨(H264.parse (avcRecord 1 0x42 0 0x1e 0xfd 0xe1 [0x67, 1] 1 [0x68, 1] []) true ⟨.new, .mem⟩).2.p, .mem⟩).1 ≠ .ok () :=
  C94_short_lengths_refuted _ 2 (.inr rfl) [0x65, 1, 2] (by simp) (by decide) [[0x41, 7]] (by decide) .mem Sink.mem_reliable

example : (H264.parse (avcRecord 1 0x42 0 0x1e 0xfd 0xe1 [0x67, 1] 1 [0x68, 1] []) true ⟨.new, .mem⟩).1 = .ok () ∧
    (H264.parse [0, 3, 0x65, 1, 2] false
      (H264.parse (avcRecord 1 0x42 0 0x1e 0xfd 0xe1 [0x67, 1] 1 [0x68, 1] []) true ⟨.new, .mem⟩).2).1 = .err .other := by
  decide +kernel

/-! ## C95 -/

/-- With a failing writer the call reports the writer's error (exactly if a `Write` failed), the bytes written are a prefix of those a
reliable writer would have got, and the parser ends in the same state. -/
theorem C95_failing_writer (p : Packet) (c : Parser.CodecParser) (w : Sink)
    (good : Res Unit × Dev Parser.CodecParser) (hg : good = Parser.parse p ⟨c, .mem⟩)
    (got : Res Unit × Dev Parser.CodecParser) (hgot : got = Parser.parse p ⟨c, w⟩) :
    got.2.p = good.2.p ∧ (got.1 = .err .writer ↔ ∃ k, w.calls ≤ k ∧ k < got.2.w.calls ∧ w.plan k ≠ none) ∧
    ∃ pre post, good.2.w.out = pre ++ post ∧ got.2.w.out = w.out ++ pre ∧
      (got.1 = good.1 ∧ post = [] ∨ got.1 = .err .writer) := by
  subst hg hgot
  by_cases hp : Typed p
  case neg =>
    rw [codec_untyped p hp, codec_untyped p hp]
    refine ⟨rfl, ⟨by simp, ?_⟩, [], [], rfl, by simp, .inl ⟨rfl, rfl⟩⟩
    rintro ⟨k, h1, h2, _⟩
    exact absurd h2 (by simp; omega)
  obtain ⟨c', cs, r, he, hr⟩ := codec_through p c hp
  rw [he, he]
  refine ⟨rfl, ?_⟩
  have hm : ((runChunks cs >>= fun _ => GoM.lift r) Sink.mem) = (r, _) :=
    Emits.reliable (m := runChunks cs >>= fun _ => GoM.lift r) rfl _ Sink.mem_reliable
  rw [hm]
  obtain ⟨_, pre, post, h1, h2, h3⟩ := runChunks_any cs w
  have h4 := runChunks_err_iff cs w
  rw [GoM.bind_apply]
  rcases hc : runChunks cs w with ⟨x, w'⟩
  rw [hc] at h2 h3 h4
  simp only at h2 h3 h4
  rcases h3 with ⟨rfl, rfl⟩ | rfl
  · refine ⟨?_, pre, [], by simp [Sink.mem, h1], h2, .inl ⟨rfl, rfl⟩⟩
    refine Iff.trans (Iff.trans ?_ (show Res.ok () = Res.err Err.writer ↔ False by simp)) (Iff.trans (by simp) h4)
    rcases hr with rfl | rfl <;> simp [GoM.lift]
  · exact ⟨h4, pre, post, by simp [Sink.mem, h1], h2, .inr rfl⟩

/-- A writer that fails in the middle of the second write of an AAC frame. -/
example : (Aac.parse [1, 2, 3, 4] 1 ⟨(Aac.parse [0x12, 0x10] 0 ⟨.new, .mem⟩).2.p,
      { out := [], plan := fun k => if k = 1 then some 2 else none }⟩).1 = .err .writer ∧
    (Aac.parse [1, 2, 3, 4] 1 ⟨(Aac.parse [0x12, 0x10] 0 ⟨.new, .mem⟩).2.p,
      { out := [], plan := fun k => if k = 1 then some 2 else none }⟩).2.w.out =
      [0xff, 0xf1, 0x50, 0x80, 0x01, 0x7f, 0xfc, 1, 2] :=
  ⟨by decide +kernel, by decide +kernel⟩

end Es
end Verif.Props
