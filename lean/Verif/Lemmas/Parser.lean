import Verif.Lemmas.H264
import Verif.Spec.ParserHistory
/-! # Lemmas about the parsers -/
namespace Verif
open Verif.Spec.Es

theorem Dev.onW_apply {P α} (m : GoM Sink α) (s : Dev P) :
    Dev.onW m s = ((m s.w).1, { s with w := (m s.w).2 }) := rfl

namespace H264

theorem parse_data (b : Bytes) (s : Dev Parser) (h0 : b ≠ []) (hs : b.take 4 ≠ [0, 0, 0, 1]) :
    parse b false s = Dev.onW (getAnnexbH264 s.p b) s := by
  unfold parse
  rw [if_neg (by simpa using h0), if_neg (by simp), isStart_eq, beq_eq_false_iff_ne.mpr hs]

theorem parse_start (b : Bytes) (s : Dev Parser) (hs : b.take 4 = [0, 0, 0, 1]) :
    parse b false s = Dev.onW (Sink.write b) s := by
  unfold parse
  rw [if_neg (by intro h; rw [List.length_eq_zero_iff.mp h] at hs; simp at hs), if_neg (by simp), isStart_eq, beq_iff_eq.mpr hs]

theorem parse_hdr (b : Bytes) (s : Dev Parser) (h0 : b ≠ []) :
    parse b true s = ((parseSpecificInfo b s.p).1, { s with p := (parseSpecificInfo b s.p).2 }) := by
  unfold parse
  rw [if_neg (by simpa using h0), if_pos rfl]


/-- Shape of every call. -/
theorem parse_through (b : Bytes) (q : Bool) (p : Parser) :
    ∃ p' cs r, (∀ w, parse b q ⟨p, w⟩ =
      (((runChunks cs >>= fun _ => GoM.lift r) w).1, ⟨p', ((runChunks cs >>= fun _ => GoM.lift r) w).2⟩)) ∧
      (r = .ok () ∨ r = .err .other) ∧ (q = false → p' = p) ∧ (q = true → cs = []) ∧ (r ≠ .ok () → p' = p) := by
  by_cases h0 : b = []
  · subst h0
    exact ⟨p, [], .err .other, fun w => rfl, .inr rfl, fun _ => rfl, fun _ => rfl, fun _ => rfl⟩
  cases q with
  | true =>
    rcases parseSpecific_cases p b with h | ⟨sps, pps, ext, h⟩
    · exact ⟨p, [], .err .other, fun w => by rw [parse_hdr _ _ h0, h]; rfl, .inr rfl, by simp, fun _ => rfl, fun _ => rfl⟩
    · exact ⟨_, [], .ok (), fun w => by rw [parse_hdr _ _ h0, parseSpecific_ok p b _ _ _ h]; rfl, .inl rfl, by simp, fun _ => rfl, by simp⟩
  | false =>
    by_cases hs : b.take 4 = [0, 0, 0, 1]
    · refine ⟨p, [b], .ok (), fun w => ?_, .inl rfl, fun _ => rfl, by simp, fun _ => rfl⟩
      rw [parse_start _ _ hs, Dev.onW_apply, Emits.write b]
    · obtain ⟨cs, r, he, hr⟩ := getAnnexb_total p b
      refine ⟨p, cs, r, fun w => ?_, ?_, fun _ => rfl, by simp, fun _ => rfl⟩
      · rw [parse_data _ _ h0 hs, Dev.onW_apply, he]
      · rcases hr with hr | ⟨hr, _⟩ <;> simp [hr]

theorem seqHdrs_info {p : Parser} {hs} (h : SeqHdrs p hs) :
    p.specificInfo = annexB (hs.flatMap fun x => [x.1, x.2.1 ++ x.2.2]) := by
  induction h with
  | new => rfl
  | @header p hs b sps pps ext w _ hr ih =>
    have h0 : b ≠ [] := by
      obtain ⟨_, _, _, _, v, pr, co, le, ls, ns, np, rfl⟩ := hr; simp [avcRecord]
    rw [parse_hdr _ _ h0, parseSpecific_ok p b _ _ _ hr]
    simp [ih, annexB]
  | @rejected p hs b w _ hne ih =>
    obtain ⟨p', cs, r, he, h1, _, h3, h4⟩ := parse_through b true p
    rw [he w] at hne ⊢
    obtain rfl := h3 rfl
    rw [show p' = p from h4 (by intro e; exact hne (by rw [e]; rfl))]
    exact ih
  | @data p hs b w _ ih =>
    obtain ⟨p', cs, r, he, h1, h2, _⟩ := parse_through b false p
    rw [he w, h2 rfl]
    exact ih
end H264

namespace Aac


theorem specific_eq (b0 b1 : UInt8) (r : Bytes) (s : Dev Parser) :
    parse (b0 :: b1 :: r) 0 s =
      (if ((b0 &&& 0x07) <<< 1) ||| b1 >>> 7 = 0xf then .err .other else .ok (),
        ⟨⟨true, (b0 >>> 3) &&& 0xff, ((b0 &&& 0x07) <<< 1) ||| b1 >>> 7, (b1 >>> 3) &&& 0x0f⟩, s.w⟩) := by
  unfold parse
  rw [if_neg (by simp), if_pos (show (0 : UInt8) = AacSeqHdr from rfl)]
  unfold specificInfo
  rw [if_neg (by simp)]
  simp only [show goIndex (b0 :: b1 :: r) 0 = .ok b0 from rfl, show goIndex (b0 :: b1 :: r) 1 = .ok b1 from rfl]
  split <;> rfl

theorem raw_eq (b : Bytes) (s : Dev Parser) (h0 : b ≠ []) (hg : s.p.gotSpecific = true) :
    parse b 1 s = Dev.onW (do Sink.write (adtsHeader s.p b.length); Sink.write b) s := by
  unfold parse
  rw [if_neg (by simpa using h0), if_neg (by decide), if_pos (show (1 : UInt8) = AacRaw from rfl)]
  unfold addADTSToFrame
  rw [if_neg (by simp [h0, hg])]

theorem raw_unset (b : Bytes) (s : Dev Parser) (hg : s.p.gotSpecific = false) :
    parse b 1 s = (.err .other, s) := by
  by_cases h0 : b = []
  · subst h0; rfl
  unfold parse
  rw [if_neg (by simpa using h0), if_neg (by decide), if_pos (show (1 : UInt8) = AacRaw from rfl)]
  unfold addADTSToFrame
  rw [if_pos (.inr hg)]; rfl

theorem other_eq (b : Bytes) (t : UInt8) (s : Dev Parser) (h0 : t ≠ 0) (h1 : t ≠ 1) :
    parse b t s = (.err .other, s) := by
  unfold parse
  split
  · rfl
  rw [if_neg (show ¬ t = AacSeqHdr from h0), if_neg (show ¬ t = AacRaw from h1)]

/-- Shape of every call. -/
theorem parse_through (b : Bytes) (t : UInt8) (p : Parser) :
    ∃ p' cs r, (∀ w, parse b t ⟨p, w⟩ =
      (((runChunks cs >>= fun _ => GoM.lift r) w).1, ⟨p', ((runChunks cs >>= fun _ => GoM.lift r) w).2⟩)) ∧
      (r = .ok () ∨ r = .err .other ∧ cs = []) ∧ (t ≠ 0 → p' = p) := by
  by_cases t0 : t = 0
  · subst t0
    match b with
    | [] => exact ⟨p, [], .err .other, fun w => rfl, .inr ⟨rfl, rfl⟩, by simp⟩
    | [b] => exact ⟨p, [], .err .other, fun w => rfl, .inr ⟨rfl, rfl⟩, by simp⟩
    | b0 :: b1 :: r =>
      by_cases h : ((b0 &&& 0x07) <<< 1) ||| b1 >>> 7 = 0xf
      · exact ⟨_, [], .err .other, fun w => by rw [specific_eq, if_pos h]; rfl, .inr ⟨rfl, rfl⟩, by simp⟩
      · exact ⟨_, [], .ok (), fun w => by rw [specific_eq, if_neg h]; rfl, .inl rfl, by simp⟩
  by_cases t1 : t = 1
  · subst t1
    by_cases h0 : b = []
    · subst h0
      exact ⟨p, [], .err .other, fun w => rfl, .inr ⟨rfl, rfl⟩, fun _ => rfl⟩
    cases hg : p.gotSpecific with
    | false => exact ⟨p, [], .err .other, fun w => raw_unset b ⟨p, w⟩ hg, .inr ⟨rfl, rfl⟩, fun _ => rfl⟩
    | true =>
      refine ⟨p, [adtsHeader p b.length, b], .ok (), fun w => ?_, .inl rfl, fun _ => rfl⟩
      rw [raw_eq b ⟨p, w⟩ h0 hg, Dev.onW_apply, (Emits.write (adtsHeader p b.length)).bind (Emits.write b)]
      rfl
  · exact ⟨p, [], .err .other, fun w => other_eq b t ⟨p, w⟩ t0 t1, .inr ⟨rfl, rfl⟩, fun _ => rfl⟩

theorem byte_shr (b : UInt8) (k : Nat) (hk : k < 8) : (b >>> UInt8.ofNat k).toNat = b.toNat / 2 ^ k := by
  rw [UInt8.toNat_shiftRight, Nat.shiftRight_eq_div_pow, UInt8.toNat_ofNat', Nat.mod_eq_of_lt (by omega : k < 2 ^ 8), Nat.mod_eq_of_lt hk]

theorem config_fields (o i c l : Nat) (ho : o < 32) (hi : i < 16) (hc : c < 16) (hl : l < 8) :
    ∃ b0 b1 : UInt8, audioConfig o i c l = [b0, b1] ∧ (b0 >>> 3) &&& 0xff = UInt8.ofNat o ∧
      ((b0 &&& 0x07) <<< 1) ||| b1 >>> 7 = UInt8.ofNat i ∧ (b1 >>> 3) &&& 0x0f = UInt8.ofNat c := by
  refine ⟨UInt8.ofNat (o * 8 + i / 2), UInt8.ofNat (i % 2 * 128 + c * 8 + l), ?_, ?_, ?_, ?_⟩
  · simp only [audioConfig, Spec.Flv.beN]
    congr 1
    · congr 1; omega
    congr 1
    · congr 1; omega
  · apply UInt8.toNat_inj.mp
    rw [UInt8.toNat_and, show ∀ b : UInt8, (b >>> 3).toNat = b.toNat / 2 ^ 3 from fun b => byte_shr b 3 (by omega), UInt8.toNat_ofNat', UInt8.toNat_ofNat']
    have := Nat.and_two_pow_sub_one_eq_mod ((o * 8 + i / 2) % 2 ^ 8 / 2 ^ 3) 8
    rw [show (0xff : UInt8).toNat = 2 ^ 8 - 1 from rfl, this]
    omega
  · have hi2 : i / 2 < 8 := by omega
    apply UInt8.toNat_inj.mp
    rw [UInt8.toNat_or, UInt8.toNat_shiftLeft, show ∀ b : UInt8, (b >>> 7).toNat = b.toNat / 2 ^ 7 from fun b => byte_shr b 7 (by omega), UInt8.toNat_and, UInt8.toNat_ofNat', UInt8.toNat_ofNat', UInt8.toNat_ofNat']
    rw [show (0x07 : UInt8).toNat = 2 ^ 3 - 1 from rfl, Nat.and_two_pow_sub_one_eq_mod]
    rw [show (1 : UInt8).toNat % 8 = 1 from rfl, Nat.shiftLeft_eq]
    have e1 : (o * 8 + i / 2) % 2 ^ 8 % 2 ^ 3 * 2 ^ 1 % 2 ^ 8 = (i / 2) <<< 1 := by rw [Nat.shiftLeft_eq]; omega
    have e2 : (i % 2 * 128 + c * 8 + l) % 2 ^ 8 / 2 ^ 7 = i % 2 := by omega
    rw [e1, e2, ← Nat.shiftLeft_add_eq_or_of_lt (by omega), Nat.shiftLeft_eq]
    omega
  · apply UInt8.toNat_inj.mp
    rw [UInt8.toNat_and, show ∀ b : UInt8, (b >>> 3).toNat = b.toNat / 2 ^ 3 from fun b => byte_shr b 3 (by omega), UInt8.toNat_ofNat', UInt8.toNat_ofNat']
    rw [show (0x0f : UInt8).toNat = 2 ^ 4 - 1 from rfl, Nat.and_two_pow_sub_one_eq_mod]
    omega

/-- The header bytes as numbers; nothing is assumed about the range of the configuration or the frame. -/
theorem adts_bytes (p : Parser) (n : Nat) (hi : p.sampleRateIndex.toNat < 16) (hc : p.channel.toNat < 16) :
    (adtsHeader p n).map UInt8.toNat =
      [255, 241, ((p.objectType.toNat + 3) % 4 * 64) ||| (p.sampleRateIndex.toNat * 4) ||| (p.channel.toNat / 4),
        p.channel.toNat % 4 * 64 + (n + 7) % 8192 / 2048, (n + 7) % 2048 / 8, (n + 7) % 8 * 32 + 31, 252] := by
  have hl : ((UInt16.ofNat n + 7) &&& 0x1fff : UInt16).toNat = (n + 7) % 8192 := by
    rw [UInt16.toNat_and, UInt16.toNat_add, UInt16.toNat_ofNat', show (0x1fff : UInt16).toNat = 2 ^ 13 - 1 from rfl,
      Nat.and_two_pow_sub_one_eq_mod, show (7 : UInt16).toNat = 7 from rfl]
    omega
  unfold adtsHeader
  generalize hf : (UInt16.ofNat n + 7) &&& 0x1fff = f at hl
  dsimp only
  rw [hf]
  simp only [List.map_cons, List.map_nil]
  have f1 : (f >>> 11).toUInt8.toNat = (n + 7) % 8192 / 2048 := by
    rw [UInt16.toNat_toUInt8, UInt16.toNat_shiftRight, hl, show (11 : UInt16).toNat % 16 = 11 from rfl, Nat.shiftRight_eq_div_pow]
    omega
  have f2 : ((f &&& 0x7ff) >>> 3).toUInt8.toNat = (n + 7) % 2048 / 8 := by
    rw [UInt16.toNat_toUInt8, UInt16.toNat_shiftRight, UInt16.toNat_and, hl, show (3 : UInt16).toNat % 16 = 3 from rfl,
      Nat.shiftRight_eq_div_pow, show (0x7ff : UInt16).toNat = 2 ^ 11 - 1 from rfl, Nat.and_two_pow_sub_one_eq_mod]
    omega
  have f3 : ((f &&& 0x7) <<< 5).toUInt8.toNat = (n + 7) % 8 * 32 := by
    rw [UInt16.toNat_toUInt8, UInt16.toNat_shiftLeft, UInt16.toNat_and, hl, show (5 : UInt16).toNat % 16 = 5 from rfl,
      Nat.shiftLeft_eq, show (0x7 : UInt16).toNat = 2 ^ 3 - 1 from rfl, Nat.and_two_pow_sub_one_eq_mod]
    omega
  have c1 : (p.channel >>> 2).toNat = p.channel.toNat / 4 := byte_shr _ 2 (by omega)
  have c2 : ((p.channel &&& 0x3) <<< 6).toNat = p.channel.toNat % 4 * 64 := by
    rw [UInt8.toNat_shiftLeft, UInt8.toNat_and, show (0x3 : UInt8).toNat = 2 ^ 2 - 1 from rfl,
      Nat.and_two_pow_sub_one_eq_mod, show (6 : UInt8).toNat % 8 = 6 from rfl, Nat.shiftLeft_eq]
    omega
  have i1 : (p.sampleRateIndex <<< 2).toNat = p.sampleRateIndex.toNat * 4 := by
    rw [UInt8.toNat_shiftLeft, show (2 : UInt8).toNat % 8 = 2 from rfl, Nat.shiftLeft_eq]
    omega
  have o1 : ((p.objectType - 1) <<< 6).toNat = (p.objectType.toNat + 3) % 4 * 64 := by
    have := p.objectType.toNat_lt
    rw [UInt8.toNat_shiftLeft, UInt8.toNat_sub, show (6 : UInt8).toNat % 8 = 6 from rfl, Nat.shiftLeft_eq, show (1 : UInt8).toNat = 1 from rfl]
    omega
  have e3 : (p.channel.toNat % 4 * 64 ||| (n + 7) % 8192 / 2048) = p.channel.toNat % 4 * 64 + (n + 7) % 8192 / 2048 := by
    have := Nat.shiftLeft_add_eq_or_of_lt (b := (n + 7) % 8192 / 2048) (i := 6) (by omega) (p.channel.toNat % 4)
    rw [Nat.shiftLeft_eq] at this
    exact this.symm
  have e5 : ((n + 7) % 8 * 32 ||| 31) = (n + 7) % 8 * 32 + 31 := by
    have := Nat.shiftLeft_add_eq_or_of_lt (b := 31) (i := 5) (by omega) ((n + 7) % 8)
    rw [Nat.shiftLeft_eq] at this
    exact this.symm
  rw [UInt8.toNat_or, UInt8.toNat_or, UInt8.toNat_or, UInt8.toNat_or, f1, f2, f3, c1, c2, i1, o1, show (0x1f : UInt8).toNat = 31 from rfl, e3, e5]
  rfl

theorem readAdts_header (p : Parser) (n : Nat) (frame : Bytes) (hi : p.sampleRateIndex.toNat < 16) (hc : p.channel.toNat < 16) :
    readAdts (adtsHeader p n ++ frame) = some
      ({ mpeg4 := true, layer := 0, crcAbsent := true, profile := (p.objectType.toNat + 3) % 4
         rateIndex := p.sampleRateIndex.toNat, privateBit := p.channel.toNat / 8, channels := p.channel.toNat % 8
         frameLength := (n + 7) % 8192, blocks := 0 }, frame) := by
  have hb := adts_bytes p n hi hc
  have e2 : ((p.objectType.toNat + 3) % 4 * 64 ||| p.sampleRateIndex.toNat * 4 ||| p.channel.toNat / 4) =
      (p.objectType.toNat + 3) % 4 * 64 + p.sampleRateIndex.toNat * 4 + p.channel.toNat / 4 := by
    have e1 := Nat.shiftLeft_add_eq_or_of_lt (b := p.sampleRateIndex.toNat * 4) (i := 6) (by omega) ((p.objectType.toNat + 3) % 4)
    rw [Nat.shiftLeft_eq] at e1
    rw [show (64 : Nat) = 2 ^ 6 from rfl, ← e1]
    have e2 := Nat.shiftLeft_add_eq_or_of_lt (b := p.channel.toNat / 4) (i := 2) (by omega)
      ((p.objectType.toNat + 3) % 4 * 16 + p.sampleRateIndex.toNat)
    rw [Nat.shiftLeft_eq] at e2
    have e3 : ((p.objectType.toNat + 3) % 4 * 16 + p.sampleRateIndex.toNat) * 2 ^ 2 =
      (p.objectType.toNat + 3) % 4 * 2 ^ 6 + p.sampleRateIndex.toNat * 4 := by omega
    rw [e3] at e2
    exact e2.symm
  rw [e2] at hb
  obtain ⟨a0, a1, a2, a3, a4, a5, a6, hh⟩ : ∃ a0 a1 a2 a3 a4 a5 a6, adtsHeader p n = [a0, a1, a2, a3, a4, a5, a6] :=
    ⟨_, _, _, _, _, _, _, rfl⟩
  rw [hh] at hb ⊢
  simp only [List.map_cons, List.map_nil, List.cons.injEq, and_true] at hb
  obtain ⟨h0, h1, h2, h3, h4, h5, h6⟩ := hb
  generalize p.objectType.toNat = o at *
  generalize p.sampleRateIndex.toNat = i at *
  generalize p.channel.toNat = c at *
  have hn : Spec.Flv.nat [a0, a1, a2, a3, a4, a5, a6] = 255 * 281474976710656 + 241 * 1099511627776 +
      ((o + 3) % 4 * 64 + i * 4 + c / 4) * 4294967296 + (c % 4 * 64 + (n + 7) % 8192 / 2048) * 16777216 +
      ((n + 7) % 2048 / 8) * 65536 + ((n + 7) % 8 * 32 + 31) * 256 + 252 := by
    simp only [Spec.Flv.nat, List.foldl, h0, h1, h2, h3, h4, h5, h6]; omega
  have hx : (o + 3) % 4 < 4 := Nat.mod_lt _ (by omega)
  have hm : (n + 7) % 8192 < 8192 := Nat.mod_lt _ (by omega)
  have q1 : (n + 7) % 2048 / 8 = (n + 7) % 8192 / 8 % 256 := by omega
  have q2 : (n + 7) % 8 = (n + 7) % 8192 % 8 := by omega
  rw [q1, q2] at hn
  generalize (o + 3) % 4 = x at *
  generalize (n + 7) % 8192 = m at *
  unfold readAdts
  rw [if_neg (by simp)]
  have ht : ([a0, a1, a2, a3, a4, a5, a6] ++ frame).take 7 = [a0, a1, a2, a3, a4, a5, a6] := by simp
  simp only [ht, bitsAt, hn, List.length_cons, List.length_nil]
  rw [if_pos (by simp; omega)]
  simp only [Option.some.injEq, Prod.mk.injEq, Adts.mk.injEq, beq_iff_eq]
  refine ⟨⟨?_, ?_, ?_, ?_, ?_, ?_, ?_, ?_, ?_⟩, by simp⟩ <;> simp <;> omega

end Aac

namespace Mp3
theorem parse_eq (a b c : UInt8) (r : Bytes) (p : Parser) :
    parse (a :: b :: c :: r) p = (match c.toNat / 2 % 4 with
      | 0 => (.ok (), ⟨44100⟩)
      | 1 => (.ok (), ⟨48000⟩)
      | 2 => (.ok (), ⟨32000⟩)
      | _ => (.err .other, p)) := by
  unfold parse
  rw [if_neg (by simp)]
  simp only [show goIndex (a :: b :: c :: r) 2 = .ok c from rfl]
  have h : ((c >>> 1) &&& 0x3).toNat = c.toNat / 2 % 4 := by
    rw [UInt8.toNat_and, show (c >>> 1).toNat = c.toNat / 2 ^ 1 from Aac.byte_shr c 1 (by omega),
      show (0x3 : UInt8).toNat = 2 ^ 2 - 1 from rfl, Nat.and_two_pow_sub_one_eq_mod]
  rw [h]
  have hl : c.toNat / 2 % 4 < 4 := Nat.mod_lt _ (by omega)
  generalize c.toNat / 2 % 4 = i at hl
  match i, hl with
  | 0, _ | 1, _ | 2, _ | 3, _ => rfl

theorem parse_short (b : Bytes) (h : b.length < 3) (p : Parser) : parse b p = (.err .other, p) := by
  unfold parse; rw [if_pos h]

theorem parse_cases (b : Bytes) (p : Parser) :
    parse b p = (.err .other, p) ∨ ∃ r, r ∈ [44100, 48000, 32000] ∧ parse b p = (.ok (), ⟨r⟩) := by
  match b with
  | [] | [_] | [_, _] => left; exact parse_short _ (by simp) p
  | a :: b :: c :: r =>
    rw [parse_eq]
    split <;> simp
end Mp3
end Verif
