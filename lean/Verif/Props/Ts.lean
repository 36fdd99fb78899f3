import Verif.Lemmas.TsSession
/-!
# Properties C40–C44, C47–C55, C57, C58, C90–C92: MPEG transport stream

The readers are in `Verif/Spec/Ts.lean`, the CRC in `Verif/Spec/Crc.lean`, the reachable states in
`Verif/Spec/TsHistory.lean`.
-/
namespace Verif.Props
open Verif

section Ts
open Verif.Ts Verif.Spec.Ts

/-! ## C40 -/

/-- `GenerateCrc32` is the bit-serial CRC-32/MPEG-2. -/
theorem C40_crc32_mpeg2 (s : Bytes) : ∃ c, generateCrc32 s = .ok c ∧ c.toBitVec = Spec.Crc.crc s :=
  ⟨_, generateCrc32_eq s, rfl⟩

/-- The check value of CRC-32/MPEG-2: "123456789" gives 0x0376E6E7. -/
example : generateCrc32 [49, 50, 51, 52, 53, 54, 55, 56, 57] = .ok 0x0376E6E7 := by decide +kernel

/-! ## C41 -/

/-- A section with its CRC appended checks to zero. -/
theorem C41_residue (s : Bytes) : ∃ c, generateCrc32 s = .ok c ∧ generateCrc32 (s ++ be32 c) = .ok 0 :=
  ⟨_, generateCrc32_eq s, by rw [generateCrc32_eq, crc_be32]; rfl⟩

theorem be32_surj (a b c d : UInt8) : ∃ x : UInt32, be32 x = [a, b, c, d] := by
  have := a.toNat_lt; have := b.toNat_lt; have := c.toNat_lt; have := d.toNat_lt
  refine ⟨UInt32.ofNat (a.toNat * 2 ^ 24 + b.toNat * 2 ^ 16 + c.toNat * 2 ^ 8 + d.toNat), ?_⟩
  unfold be32
  have h : (UInt32.ofNat (a.toNat * 2 ^ 24 + b.toNat * 2 ^ 16 + c.toNat * 2 ^ 8 + d.toNat)).toNat
      = a.toNat * 2 ^ 24 + b.toNat * 2 ^ 16 + c.toNat * 2 ^ 8 + d.toNat := by
    rw [UInt32.toNat_ofNat']; omega
  refine List.cons_eq_cons.mpr ⟨?_, List.cons_eq_cons.mpr ⟨?_, List.cons_eq_cons.mpr ⟨?_, List.cons_eq_cons.mpr ⟨?_, rfl⟩⟩⟩⟩ <;>
    (apply UInt8.toNat_inj.mp; simp [Nat.shiftRight_eq_div_pow] <;> omega)

theorem bytesIn_zero (n : Nat) : bytesIn 0#32 (List.replicate n 0) = 0#32 := by
  induction n with
  | zero => rfl
  | succ n ih => rw [List.replicate_succ, bytesIn_cons, show Spec.Crc.byteIn 0#32 0 = 0#32 by decide, ih]

theorem zipWith_zero (l : Bytes) : List.zipWith (· ^^^ ·) l (List.replicate l.length 0) = l := by
  induction l with
  | nil => rfl
  | cons a l ih => simp [List.replicate_succ, ih]

/-- At most four bytes, not all zero, give a CRC register that is not zero. -/
theorem bytesIn_ne (e : Bytes) (hl : e.length ≤ 4) (h : bytesIn 0#32 e = 0#32) : e = List.replicate e.length 0 := by
  have hp : bytesIn 0#32 (List.replicate (4 - e.length) 0 ++ e) = 0#32 := by rw [bytesIn_append, bytesIn_zero, h]
  generalize he : List.replicate (4 - e.length) 0 ++ e = e' at hp
  have hl' : e'.length = 4 := by rw [← he]; simp; omega
  obtain ⟨a, b, c, d, rfl⟩ : ∃ a b c d, e' = [a, b, c, d] := by
    rcases e' with _ | ⟨a, _ | ⟨b, _ | ⟨c, _ | ⟨d, _ | ⟨x, r⟩⟩⟩⟩⟩ <;> simp at hl'
    exact ⟨a, b, c, d, rfl⟩
  obtain ⟨x, hx⟩ := be32_surj a b c d
  have h1 : bytesIn x.toBitVec [a, b, c, d] = 0#32 := by rw [← hx]; exact bytesIn_self x
  have h2 := bytesIn_xor [a, b, c, d] (List.replicate 4 0) rfl x.toBitVec x.toBitVec
  have hz : List.zipWith (· ^^^ ·) [a, b, c, d] (List.replicate 4 0) = [a, b, c, d] := zipWith_zero [a, b, c, d]
  rw [BitVec.xor_self, hz, h1, hp, BitVec.zero_xor] at h2
  have h3 : (0#32 : BitVec 32) = x.toBitVec := bytesIn_inj (List.replicate 4 0) (by rw [bytesIn_zero]; exact h2)
  have h4 : x = 0 := by
    apply UInt32.toBitVec_inj.mp; rw [← h3]; rfl
  rw [h4] at hx
  have h5 : [a, b, c, d] = List.replicate 4 0 := by rw [← hx]; decide
  rw [h5] at he
  have := (List.append_eq_replicate_iff.mp he).2.2
  exact this

theorem xor_zero_eq (x y : Bytes) (hl : x.length = y.length) (h : List.zipWith (· ^^^ ·) x y = List.replicate (List.zipWith (· ^^^ ·) x y).length 0) : x = y := by
  induction x generalizing y with
  | nil => exact (List.length_eq_zero_iff.mp hl.symm).symm
  | cons a x ih =>
    cases y with
    | nil => simp at hl
    | cons b y =>
      simp only [List.zipWith_cons_cons, List.length_cons, List.replicate_succ, List.cons.injEq] at h
      have hab : a = b := by
        have := congrArg (· ^^^ b) h.1
        simpa [UInt8.xor_assoc] using this
      rw [hab, ih y (by simpa using hl) h.2]

/-- Changing up to four consecutive bytes, in particular any single byte, always changes the CRC. -/
theorem C41_detects (pre x y suf : Bytes) (hl : x.length = y.length) (h4 : x.length ≤ 4) (hne : x ≠ y) :
    generateCrc32 (pre ++ x ++ suf) ≠ generateCrc32 (pre ++ y ++ suf) := by
  rw [generateCrc32_eq, generateCrc32_eq]
  intro h
  simp only [Res.ok.injEq] at h
  have h' : Spec.Crc.crc (pre ++ x ++ suf) = Spec.Crc.crc (pre ++ y ++ suf) := congrArg UInt32.toBitVec h
  have e (s : Bytes) : Spec.Crc.crc s = bytesIn 0xFFFFFFFF#32 s := rfl
  rw [e, e, bytesIn_append, bytesIn_append, bytesIn_append, bytesIn_append] at h'
  have h1 := bytesIn_inj suf h'
  have h2 := bytesIn_xor x y hl (bytesIn 0xFFFFFFFF#32 pre) (bytesIn 0xFFFFFFFF#32 pre)
  rw [BitVec.xor_self, h1, BitVec.xor_self] at h2
  exact hne (xor_zero_eq x y hl (bytesIn_ne _ (by simp; omega) h2))

example : generateCrc32 ([1, 2] ++ [3] ++ [4]) = .ok 2033661901 ∧ generateCrc32 ([1, 2] ++ [7] ++ [4]) = .ok 1007883876 := by decide +kernel

/-! ## C42 -/

/-- The PAT after `a` earlier calls. -/
theorem C42_pat {m : Muxer} {a b : Nat} (h : Hist m a b) :
    ∃ out, (pat m).1 = .ok out ∧ out.length = 188 ∧ parsePat out = some (a % 16, 1, [(1, 0x1001)]) := by
  have hg := Hist.good h
  refine ⟨tabPacket 0x40 0x00 (tabCc m.patCc) patHeader, by rw [pat_ok m hg.pat], tabPacket_len (by decide), ?_⟩
  unfold parsePat
  rw [parse_tabPacket 0x40 0x00 (tabCc m.patCc) patHeader (by decide) (tabCc_lt _) (by decide)]
  have hs := parse_section 0x00 0xb0 0x0d 0x00 0x01 0xc1 0x00 0x00 [0x00, 0x01, 0xf0, 0x01] (179 - patHeader.length) rfl rfl rfl rfl rfl
  simp only [show (0x40 : UInt8).toNat % 32 * 256 + (0x00 : UInt8).toNat = 0 from rfl]
  rw [show parseSection (0 :: patHeader ++ be32 ⟨Spec.Crc.crc patHeader⟩ ++ List.replicate (179 - patHeader.length) 0xff) = _ from hs]
  rw [hg.patCc]
  rfl

/-- A muxer after some calls. -/
example : Hist (mux { type := 1, media := [1] } 0 0 ⟨(pat (pat Muxer.new).2).2, Sink.mem⟩).2.m 2 0 := .mux _ _ _ _ (.pat (.pat .new))

/-! ## C43 -/

/-- The streams that a PMT should list. -/
def pmtStreams : List Int → List (Nat × Nat)
  | [] => []
  | t :: ts => (if t = 0 then [(0x1b, 0x100)] else if t = 1 then [(0x0f, 0x101)] else []) ++ pmtStreams ts

theorem parse_progInfo (mt : List Int) : parseStreams (progInfo mt) = some (pmtStreams mt) := by
  induction mt with
  | nil => rfl
  | cons t ts ih =>
    unfold pmtStreams
    have hc : progInfo (t :: ts) = (if t = PktVideo then progAvc else if t = PktAudio then progAac else []) ++ progInfo ts := rfl
    rw [hc]
    by_cases h0 : t = 0
    · rw [if_pos (show t = PktVideo from h0), if_pos h0]
      show (parseStreams (progInfo ts)).map _ = _
      rw [ih]; rfl
    · rw [if_neg (show ¬ t = PktVideo from h0), if_neg h0]
      by_cases h1 : t = 1
      · rw [if_pos (show t = PktAudio from h1), if_pos h1]
        show (parseStreams (progInfo ts)).map _ = _
        rw [ih]; rfl
      · rw [if_neg (show ¬ t = PktAudio from h1), if_neg h1]
        simpa using ih

theorem progInfo_length (mt : List Int) : (progInfo mt).length = 5 * (pmtStreams mt).length := by
  induction mt with
  | nil => rfl
  | cons t ts ih =>
    unfold pmtStreams
    have hc : progInfo (t :: ts) = (if t = PktVideo then progAvc else if t = PktAudio then progAac else []) ++ progInfo ts := rfl
    rw [hc]
    by_cases h0 : t = 0
    · rw [if_pos (show t = PktVideo from h0), if_pos h0]
      simp [progAvc, ih]; omega
    · rw [if_neg (show ¬ t = PktVideo from h0), if_neg h0]
      by_cases h1 : t = 1
      · rw [if_pos (show t = PktAudio from h1), if_pos h1]
        simp [progAac, ih]; omega
      · rw [if_neg (show ¬ t = PktAudio from h1), if_neg h1]
        simpa using ih

/-- The PMT after `b` earlier calls, for at most 33 streams. -/
theorem C43_pmt {m : Muxer} {a b : Nat} (h : Hist m a b) (mt : List Int) (hs : (pmtStreams mt).length ≤ 33) :
    ∃ out pcrPid, (pmt mt m).1 = .ok out ∧ out.length = 188 ∧
      parsePmtPacket out = some (b % 16, 1, pcrPid, pmtStreams mt) := by
  have hg := Hist.good h
  have hl := progInfo_length mt
  have hlen := pmtSec_length mt
  refine ⟨tabPacket 0x50 0x01 (tabCc m.pmtCc) (pmtSec mt), (0xe1 : UInt8).toNat % 32 * 256 + (pcrLow mt 0).toNat,
    by rw [pmt_ok mt m hg.pmt (by omega)], tabPacket_len (by omega), ?_⟩
  unfold parsePmtPacket
  rw [parse_tabPacket 0x50 0x01 (tabCc m.pmtCc) (pmtSec mt) (by omega) (tabCc_lt _) (by decide)]
  have hsec := parse_section 0x02 0xb0 (UInt8.ofNat ((progInfo mt).length + 13)) 0x00 0x01 0xc1 0x00 0x00 ([0xe1, pcrLow mt 0, 0xf0, 0x00] ++ progInfo mt)
    (179 - (pmtSec mt).length) (by rw [UInt8.toNat_ofNat']; simp; omega) rfl rfl rfl rfl
  simp only [show (0x50 : UInt8).toNat % 32 * 256 + (0x01 : UInt8).toNat = 0x1001 from rfl]
  rw [show parseSection (0 :: pmtSec mt ++ be32 ⟨Spec.Crc.crc (pmtSec mt)⟩ ++ List.replicate (179 - (pmtSec mt).length) 0xff) = _ from hsec]
  simp only [show (0x02 : UInt8).toNat = 2 from rfl]
  show (parsePmt ([0xe1, pcrLow mt 0, 0xf0, 0x00] ++ progInfo mt)).map _ = _
  have hp : parsePmt ([0xe1, pcrLow mt 0, 0xf0, 0x00] ++ progInfo mt) = (parseStreams (progInfo mt)).map fun x => ((0xe1 : UInt8).toNat % 32 * 256 + (pcrLow mt 0).toNat, x) := rfl
  rw [hp, parse_progInfo, hg.pmtCc]
  rfl

example : (pmtStreams (List.replicate 16 0 ++ [7, 1])).length ≤ 33 := by decide

/-! ## C44 -/

/-- The SDT carries the descriptors if they fit (163 bytes), in every reachable state. -/
theorem C44_sdt {m : Muxer} (h : Reach m) (desc : Bytes) (hd : desc.length ≤ 163) :
    ∃ out, (sdt desc m).1 = .ok out ∧ out.length = 188 ∧ parseSdt out = some (1, desc) := by
  obtain ⟨a, b, h⟩ := h
  have hg := Hist.good h
  have hl : (sdtSec desc).length = 16 + desc.length := by simp [sdtSec]; omega
  refine ⟨tabPacket 0x40 0x11 0 (sdtSec desc), by rw [sdt_eq, sdtBytes_ok desc m.sdt hg.sdt hd], tabPacket_len (by omega), ?_⟩
  unfold parseSdt
  rw [parse_tabPacket 0x40 0x11 0 (sdtSec desc) (by omega) (by decide) (by decide)]
  have hsec := parse_section 0x42 0xF0 (UInt8.ofNat (17 + desc.length)) 0x00 0x01 0xC1 0x00 0x00
    ([0xFF, 0x01, 0xFF, 0x00, 0x01, 0xFC, 0x80, UInt8.ofNat desc.length] ++ desc)
    (179 - (sdtSec desc).length) (by rw [UInt8.toNat_ofNat']; simp; omega) rfl rfl rfl rfl
  simp only [show (0x40 : UInt8).toNat % 32 * 256 + (0x11 : UInt8).toNat = 0x11 from rfl]
  rw [show parseSection (0 :: sdtSec desc ++ be32 ⟨Spec.Crc.crc (sdtSec desc)⟩ ++ List.replicate (179 - (sdtSec desc).length) 0xff) = _ from hsec]
  simp only [show (0x42 : UInt8).toNat = 0x42 from rfl, List.cons_append, List.nil_append]
  rw [if_pos (by rw [UInt8.toNat_ofNat']; simp only [show (0x80 : UInt8).toNat % 16 = 0 from rfl]; omega)]
  rfl

/-- Longer descriptors make `SDT` panic. -/
theorem C44_sdt_panic {m : Muxer} (h : Reach m) (desc : Bytes) (hd : 163 < desc.length) : (sdt desc m).1 = .panic := by
  obtain ⟨a, b, h⟩ := h
  rw [sdt_eq, sdtBytes_panic desc m.sdt (Hist.good h).sdt hd]

example : Reach (pat Muxer.new).2 := ⟨1, 0, .pat .new⟩

/-! ## C47 -/

theorem adaptation_some (ps : List TsPacket) (v key : Bool) (media : Bytes) (pts dts : Int) (cc : UInt8) (h : ps = packets v key media pts dts cc) :
    ∀ t ∈ ps, ∀ a, t.adaptation = some a → (parseAdaptation a).isSome = true := by
  subst h
  obtain ⟨t, ts, h1, -, -, h4, h5⟩ := cut_first v key dts (pesBytes v media pts dts).length cc (pesBytes v media pts dts) (pesBytes_ne _ _ _ _)
  intro x hx a ha
  unfold packets at hx
  rw [h1] at hx
  rcases List.mem_cons.mp hx with rfl | hx
  · cases key with
    | true =>
      obtain ⟨a', h6, h7⟩ := (if_pos rfl : _) ▸ h5
      rw [ha] at h6; cases h6; rw [h7]; rfl
    | false =>
      have h6 : ∀ a, x.adaptation = some a → parseAdaptation a = some ⟨false, none⟩ := h5
      rw [h6 a ha]; rfl
  · rw [h4 x hx a ha]; rfl

theorem starts (v key : Bool) (media : Bytes) (pts dts : Int) (cc : UInt8) (i : Nat) (t : TsPacket)
    (h : (packets v key media pts dts cc)[i]? = some t) : t.start = true ↔ i = 0 := by
  obtain ⟨x, xs, h1, h2, h3, -, -⟩ := cut_first v key dts (pesBytes v media pts dts).length cc (pesBytes v media pts dts) (pesBytes_ne _ _ _ _)
  unfold packets at h
  rw [h1] at h
  cases i with
  | zero => simp only [List.getElem?_cons_zero, Option.some.injEq] at h; rw [← h]; simp [h2]
  | succ i =>
    simp only [List.getElem?_cons_succ] at h
    rw [h3 t (List.mem_of_getElem? h)]
    simp

theorem packets_payload (v key : Bool) (p : Packet) (pts dts : Int) (cc : UInt8) (h : key = true → 176 ≤ pesLen v p pts dts) :
    payload (packets v key p.media pts dts cc) = pesBytes v p.media pts dts := by
  refine cut_payload _ _ _ _ _ _ _ (Nat.le_succ _) ?_
  intro hk
  rw [pesBytes_length]
  exact h (by simpa using hk)

/-- Except for small key frames (see `C47_small_key_frame_refuted`, `C48_key_frame_panics`), what `Mux` writes is a
transport stream whose payload is a PES packet with the media.

Full claim: the same without `hlen`. -/
theorem C47_ts_payload_partial {m : Muxer} (hm : Reach m) {p : Packet} {v key : Bool} (hk : Kind p v key) (dts pts : Int)
    (hlen : key = true → 184 ≤ pesLen v p pts dts) :
    ∃ ps, Muxed m p dts pts ps ∧ ps ≠ [] ∧ (∀ t ∈ ps, t.pid = if v then 0x100 else 0x101)
      ∧ (∀ i t, ps[i]? = some t → (t.start = true ↔ i = 0))
      ∧ (∀ t ∈ ps, ∀ a, t.adaptation = some a → (parseAdaptation a).isSome = true)
      ∧ ∃ pes, parsePes (payload ps) = some pes ∧ pes.data = p.media ∧ pes.streamId = if v then 0xe0 else 0xc0 := by
  obtain ⟨a, b, hm⟩ := hm
  have hg := Hist.good hm
  refine ⟨_, muxed hg hk pts dts (fun h => .inr (hlen h)), ?_, ?_, fun i t h => starts _ _ _ _ _ _ i t h, adaptation_some _ _ _ _ _ _ _ rfl, _, (by
    rw [packets_payload _ _ _ _ _ _ (fun h => by have := hlen h; omega), parse_pesBytes]), rfl, rfl⟩
  · intro hnil
    have := packets_payload v key p pts dts (ccOf v m) (fun h => by have := hlen h; omega)
    rw [hnil] at this
    exact pesBytes_ne _ _ _ _ this.symm
  · intro t ht
    rw [cut_pid _ _ _ _ _ _ _ t ht]
    cases v <;> rfl

/-- The code violates the claim for every key frame whose PES packet has less than 176 bytes: the payload of the one
packet is no PES packet, because the stuffing is put behind the adaptation field and not into it. -/
theorem C47_small_key_frame_refuted {m : Muxer} (hm : Reach m) {p : Packet} (hk : Kind p true true) (dts pts : Int)
    (hlen : pesLen true p pts dts < 176) :
    ∃ ps, Muxed m p dts pts ps ∧ ps ≠ [] ∧ (∀ t ∈ ps, t.pid = 0x100) ∧ (∀ i t, ps[i]? = some t → (t.start = true ↔ i = 0)) ∧
      parsePes (payload ps) = none := by
  obtain ⟨a, b, hm⟩ := hm
  have hg := Hist.good hm
  refine ⟨_, muxed hg hk pts dts (fun h => .inl hlen), ?_, fun t ht => cut_pid _ _ _ _ _ _ _ t ht, fun i t h => starts _ _ _ _ _ _ i t h, ?_⟩
  · unfold packets
    simp only [cut]
    have hl := pesBytes_length true p pts dts
    rw [if_neg (pesBytes_ne _ _ _ _), if_pos ⟨by rfl, by omega⟩]
    simp
  have hl := pesBytes_length true p pts dts
  have hpk : payload (packets true true p.media pts dts (ccOf true m)) = junk (pesBytes true p.media pts dts).length ++ pesBytes true p.media pts dts := by
    unfold packets
    simp only [cut]
    rw [if_neg (pesBytes_ne _ _ _ _), if_pos ⟨by rfl, by omega⟩]
    simp [payload]
  have hpos : 14 ≤ pesLen true p pts dts := by unfold pesLen; split <;> omega
  rw [hpk]
  generalize hd : pesBytes true p.media pts dts = d at *
  rw [← hl] at hlen hpos
  unfold junk
  by_cases h175 : d.length = 175
  · -- the stuffing is a single 0
    obtain ⟨r, rfl⟩ : ∃ r, d = 0 :: 0 :: 1 :: r := by
      rw [← hd]; unfold pesBytes pesHead
      split
      · exact ⟨_, rfl⟩
      · exact ⟨_, rfl⟩
    rw [h175]
    simp only [stuffing]
    show parsePes (0 :: 0 :: 0 :: 1 :: r) = none
    rcases r with _ | ⟨a, _ | ⟨b, _ | ⟨c, _ | ⟨e, _ | ⟨f, r⟩⟩⟩⟩⟩ <;> simp [parsePes]
  · have hz : (UInt8.ofNat (175 - d.length)).toNat ≠ 0 := by rw [UInt8.toNat_ofNat']; omega
    generalize UInt8.ofNat (175 - d.length) = x at *
    rw [List.cons_append]
    unfold parsePes
    split
    · rename_i heq
      rw [List.cons.injEq] at heq
      rw [← heq.1]
      rw [if_neg (fun h => hz h.1)]
    · rfl

/-- The header of a key frame. -/
def keyHdr : VideoHdr :=
  { isKeyFrame := true, isInterFrame := false, isSeqHdr := false, isEndOfSeq := false, isCodecAvc := true,
    codecID := 7, compositionTime := 0 }

/-- A key frame. -/
def keyFrame (media : Bytes) : Packet :=
  { type := 0, media := media, header := some { video := some keyHdr, audio := none } }

example (n : Nat) : Kind (keyFrame (List.replicate n 5)) true true ∧ pesLen true (keyFrame (List.replicate n 5)) 3 4 = 19 + n :=
  ⟨.video keyHdr rfl rfl, by simp [pesLen, keyFrame]⟩

/-! ## C48 -/

/-- Except for key frames whose PES packet has 176 to 183 bytes, `Mux` never panics: it succeeds or returns the
writer's error.  Any reachable state, any writer.

Full claim: the same without `hlen`. -/
theorem C48_no_panic_partial {m : Muxer} (hm : Reach m) {p : Packet} {v key : Bool} (hk : Kind p v key) (dts pts : Int)
    (hlen : key = true → pesLen v p pts dts < 176 ∨ 184 ≤ pesLen v p pts dts) (w : Sink) :
    (mux p dts pts ⟨m, w⟩).1 = .ok () ∨ (mux p dts pts ⟨m, w⟩).1 = .err .writer := by
  obtain ⟨a, b, hm⟩ := hm
  obtain ⟨m', h1, -⟩ := mux_any (Hist.good hm) hk pts dts hlen w
  rw [h1]
  obtain ⟨-, p, q, -, -, h | h⟩ := runChunks_any ((packets v key p.media pts dts (ccOf v m)).map bytesOf) w
  · exact .inl h.1
  · exact .inr h

/-- The code violates the claim: every key frame whose PES packet has 176 to 183 bytes makes `Mux` panic. -/
theorem C48_key_frame_panics_refuted {m : Muxer} (hm : Reach m) {p : Packet} (hk : Kind p true true) (dts pts : Int)
    (h1 : 176 ≤ pesLen true p pts dts) (h2 : pesLen true p pts dts < 184) (w : Sink) : (mux p dts pts ⟨m, w⟩).1 = .panic := by
  obtain ⟨a, b, hm⟩ := hm
  exact (mux_panic p dts pts hk (by rw [pesBytes_length]; omega) (by rw [pesBytes_length]; omega) ⟨m, w⟩ (Hist.good hm).len).1

example : (mux (keyFrame (List.replicate 162 5)) 0 0 ⟨Muxer.new, Sink.mem⟩).1 = .panic := by decide +kernel

/-! ## C49 -/

/-- Over any number of successful `Mux` calls mixed with any other calls, the counters of each of the two PIDs are
1, 2, …, 15, 0, 1, … -/
theorem C49_continuity {m : Muxer} {out : Bytes} (h : Session m out) :
    ∃ ps, parseStream out = some ps ∧ (∀ t ∈ ps, t.pid = 0x100 ∨ t.pid = 0x101) ∧
      ∀ pid, (ps.filter (·.pid == pid)).map (·.cc) = (List.range (ps.filter (·.pid == pid)).length).map fun i => (i + 1) % 16 := by
  obtain ⟨ps, hi⟩ := Session.inv h
  refine ⟨ps, by rw [hi.out]; exact parse_packets ps hi.parse, hi.pids, ?_⟩
  intro pid
  by_cases h0 : pid = 0x100
  · subst h0; exact hi.counts true
  by_cases h1 : pid = 0x101
  · subst h1; exact hi.counts false
  have : ps.filter (·.pid == pid) = [] := filter_none _ _ fun t ht => by
    rcases hi.pids t ht with h | h <;> rw [h] <;> simp only [beq_eq_false_iff_ne] <;> omega
  rw [this]; rfl

/-- A session with two successful calls. -/
example : Session (mux { type := 1, media := [1] } 0 0 ⟨(mux { type := 1, media := [2] } 0 0 ⟨Muxer.new, Sink.mem⟩).2.m, Sink.mem⟩).2.m
    ([] ++ (mux { type := 1, media := [2] } 0 0 ⟨Muxer.new, Sink.mem⟩).2.w.out ++
      (mux { type := 1, media := [1] } 0 0 ⟨(mux { type := 1, media := [2] } 0 0 ⟨Muxer.new, Sink.mem⟩).2.m, Sink.mem⟩).2.w.out) :=
  .mux _ _ _ (.mux _ _ _ .new (by decide +kernel)) (by decide +kernel)

/-! ## C50, C51, C52 -/

theorem generate_pes (v : Bool) (media : Bytes) (pts dts : Int) :
    ∃ n pes, Pes.new.generate (if v then 0 else 1) media.length pts dts = .ok (n, pes) ∧ n ≤ pes.pesHeader.length ∧
      pes.pesHeader.take n ++ media = pesBytes v media pts dts := by
  obtain ⟨h, h1, h2, h3⟩ := generate_ok v media.length pts dts
  have hp := pesHead_pos v media.length pts dts
  refine ⟨(pesHead v media.length pts dts).length, ⟨[0x47, 0, 0, 0x10], h⟩, ?_, ?_, ?_⟩
  · have e : (if v then 0 else 1 : Int) = mtype v := by cases v <;> rfl
    rw [e]; exact h1
  · show _ ≤ h.length; omega
  · show h.take _ ++ media = _
    rw [h2]; rfl

theorem adj_small (t : Int) (h0 : 0 ≤ t) (h : t < 2 ^ 33) : (adj t % 2 ^ 33).toNat = t.toNat := by
  have e : (2 : Int) ^ 33 = 8589934592 := rfl
  rw [e] at *
  unfold adj
  rw [if_neg (by omega)]
  omega

theorem adj_large (t : Int) (h : 2 ^ 33 ≤ t) : (adj t % 2 ^ 33).toNat = ((t + 1) % 2 ^ 33).toNat := by
  have e : (2 : Int) ^ 33 = 8589934592 := rfl
  rw [e] at *
  unfold adj
  rw [if_pos (by omega)]
  omega

/-- `GeneratePesHeader`, followed by the media, is a PES packet with the given time stamps. -/
theorem C50_pes_stamps (v : Bool) (media : Bytes) (pts dts : Int) (hp : 0 ≤ pts ∧ pts < 2 ^ 33) (hd : 0 ≤ dts ∧ dts < 2 ^ 33) :
    ∃ n pes q, Pes.new.generate (if v then 0 else 1) media.length pts dts = .ok (n, pes) ∧
      parsePes (pes.pesHeader.take n ++ media) = some q ∧ q.streamId = (if v then 0xe0 else 0xc0) ∧ q.pts = pts.toNat ∧
      q.dts = (if v = true ∧ pts ≠ dts then some dts.toNat else none) ∧ q.data = media := by
  obtain ⟨n, pes, h1, -, h2⟩ := generate_pes v media pts dts
  refine ⟨n, pes, _, h1, by rw [h2, parse_pesBytes], rfl, adj_small _ hp.1 hp.2, ?_, rfl⟩
  simp only [adj_small _ hd.1 hd.2]

/-- The same for what `Mux` writes, where `C47` holds. -/
theorem C50_mux_stamps {m : Muxer} (hm : Reach m) {p : Packet} {v key : Bool} (hk : Kind p v key) (dts pts : Int)
    (hlen : key = true → 184 ≤ pesLen v p pts dts) (hp : 0 ≤ pts ∧ pts < 2 ^ 33) (hd : 0 ≤ dts ∧ dts < 2 ^ 33) :
    ∃ ps q, Muxed m p dts pts ps ∧ parsePes (payload ps) = some q ∧ q.pts = pts.toNat ∧
      q.dts = (if v = true ∧ pts ≠ dts then some dts.toNat else none) := by
  obtain ⟨a, b, hm⟩ := hm
  refine ⟨_, _, muxed (Hist.good hm) hk pts dts (fun h => .inr (hlen h)),
    by rw [packets_payload _ _ _ _ _ _ (fun h => by have := hlen h; omega), parse_pesBytes], adj_small _ hp.1 hp.2, ?_⟩
  simp only [adj_small _ hd.1 hd.2]

example : (0 : Int) ≤ 8589934591 ∧ (8589934591 : Int) < 2 ^ 33 := by decide

/-- The code violates C51 for every time stamp of 2^33 or more: the PES header says one more than it should. -/
theorem C51_wrap_refuted (v : Bool) (media : Bytes) (pts dts : Int) (h : 2 ^ 33 ≤ pts) :
    ∃ n pes q, Pes.new.generate (if v then 0 else 1) media.length pts dts = .ok (n, pes) ∧
      parsePes (pes.pesHeader.take n ++ media) = some q ∧ q.pts = ((pts + 1) % 2 ^ 33).toNat ∧ q.pts ≠ (pts % 2 ^ 33).toNat := by
  obtain ⟨n, pes, h1, -, h2⟩ := generate_pes v media pts dts
  refine ⟨n, pes, _, h1, by rw [h2, parse_pesBytes], adj_large _ h, ?_⟩
  show (adj pts % 2 ^ 33).toNat ≠ _
  rw [adj_large _ h]
  have e : (2 : Int) ^ 33 = 8589934592 := rfl
  rw [e]
  omega

/-- Likewise the DTS. -/
theorem C51_dts_wrap_refuted (media : Bytes) (pts dts : Int) (h : 2 ^ 33 ≤ dts) (hne : pts ≠ dts) :
    ∃ n pes q d, Pes.new.generate 0 media.length pts dts = .ok (n, pes) ∧
      parsePes (pes.pesHeader.take n ++ media) = some q ∧ q.dts = some d ∧ d ≠ (dts % 2 ^ 33).toNat := by
  obtain ⟨n, pes, h1, -, h2⟩ := generate_pes true media pts dts
  refine ⟨n, pes, _, (adj dts % 2 ^ 33).toNat, h1, by rw [h2, parse_pesBytes], ?_, ?_⟩
  · simp only
    rw [if_pos ⟨trivial, hne⟩]
  rw [adj_large _ h]
  have e : (2 : Int) ^ 33 = 8589934592 := rfl
  rw [e]
  omega

/-- Below 2^33 (also for negative time stamps) the encoded value is the time stamp mod 2^33.

Full claim: the same for every time stamp. -/
theorem C51_wrap_partial (v : Bool) (media : Bytes) (pts dts : Int) (h : pts < 2 ^ 33) :
    ∃ n pes q, Pes.new.generate (if v then 0 else 1) media.length pts dts = .ok (n, pes) ∧
      parsePes (pes.pesHeader.take n ++ media) = some q ∧ q.pts = (pts % 2 ^ 33).toNat := by
  obtain ⟨n, pes, h1, -, h2⟩ := generate_pes v media pts dts
  refine ⟨n, pes, _, h1, by rw [h2, parse_pesBytes], ?_⟩
  have e : (2 : Int) ^ 33 = 8589934592 := rfl
  show (adj pts % 2 ^ 33).toNat = _
  unfold adj
  rw [if_neg (by rw [e] at h; omega)]

/-- The length field of the PES packet is exact, or 0 if it does not fit. -/
theorem C52_pes_length (v : Bool) (media : Bytes) (pts dts : Int) :
    ∃ n pes q, Pes.new.generate (if v then 0 else 1) media.length pts dts = .ok (n, pes) ∧
      parsePes (pes.pesHeader.take n ++ media) = some q ∧ q.data = media ∧
      q.length = if (pes.pesHeader.take n ++ media).length - 6 ≤ 65535 then (pes.pesHeader.take n ++ media).length - 6 else 0 := by
  obtain ⟨n, pes, h1, -, h2⟩ := generate_pes v media pts dts
  exact ⟨n, pes, _, h1, by rw [h2, parse_pesBytes], rfl, by rw [h2]⟩

/-- The boundary: 65535 bytes follow the length field, then 65536. -/
example : (∃ pes, Pes.new.generate 0 65522 1 2 = .ok (19, pes) ∧ (pes.pesHeader.drop 4).take 2 = [0xff, 0xff]) ∧
    ∃ pes, Pes.new.generate 0 65523 1 2 = .ok (19, pes) ∧ (pes.pesHeader.drop 4).take 2 = [0, 0] :=
  ⟨⟨⟨[71, 0, 0, 16], [0, 0, 1, 224, 255, 255, 128, 192, 10, 33, 0, 1, 0, 3, 49, 0, 1, 0, 5]⟩, by decide +kernel, rfl⟩,
    ⟨⟨[71, 0, 0, 16], [0, 0, 1, 224, 0, 0, 128, 192, 10, 33, 0, 1, 0, 3, 49, 0, 1, 0, 5]⟩, by decide +kernel, rfl⟩⟩

/-! ## C53 -/

/-- Whenever `Mux` succeeds, the first packet of a key frame has the random access flag and the PCR, and no other
packet of any frame has a PCR. -/
theorem C53_pcr {m : Muxer} (hm : Reach m) {p : Packet} {v key : Bool} (hk : Kind p v key) (dts pts : Int) (w : Sink)
    (hok : (mux p dts pts ⟨m, w⟩).1 = .ok ()) :
    ∃ t ts, Muxed m p dts pts (t :: ts) ∧ (∀ x ∈ ts, pcrOf x = none) ∧
      (key = true → ∃ a, t.adaptation = some a ∧ parseAdaptation a = some ⟨true, some ((dts % 2 ^ 33).toNat, 0)⟩) ∧
      (key = false → pcrOf t = none) := by
  obtain ⟨a, b, hm⟩ := hm
  have hg := Hist.good hm
  have hf : Fits v key p pts dts := by
    intro hkey
    have hv : v = true := by
      cases hk with
      | video vh ht hh => rfl
      | audio ht => simp at hkey
    subst hkey hv
    by_cases h1 : pesLen true p pts dts < 176
    · exact .inl h1
    by_cases h2 : 184 ≤ pesLen true p pts dts
    · exact .inr h2
    have := (mux_panic p dts pts hk (by rw [pesBytes_length]; omega) (by rw [pesBytes_length]; omega) ⟨m, w⟩ hg.len).1
    rw [this] at hok
    simp at hok
  obtain ⟨t, ts, h1, -, -, h4, h5⟩ := cut_first v key dts (pesBytes v p.media pts dts).length (ccOf v m) (pesBytes v p.media pts dts) (pesBytes_ne _ _ _ _)
  have hmx := muxed hg hk pts dts hf
  rw [show packets v key p.media pts dts (ccOf v m) = t :: ts from h1] at hmx
  have none_of : ∀ x : TsPacket, (∀ a, x.adaptation = some a → parseAdaptation a = some ⟨false, none⟩) → pcrOf x = none := by
    intro x hx
    unfold pcrOf
    cases ha : x.adaptation with
    | none => rfl
    | some a => simp only [hx a ha]
  refine ⟨t, ts, hmx, fun x hx => none_of x (h4 x hx), ?_, ?_⟩
  · rintro rfl; exact h5
  · rintro rfl; exact none_of t h5

example : (mux (keyFrame (List.replicate 300 1)) 7 7 ⟨Muxer.new, Sink.mem⟩).1 = .ok () := by decide +kernel

/-! ## C54, C55 -/

theorem sync_eq (s : Sync) (d rate : Int) (hr : 0 < rate) : syncAudioTs d rate s =
    let pts := s.frameDts + s.frameNum * (92160000 / rate)
    if -s.syncMs ≤ pts - d ∧ pts - d ≤ s.syncMs then (.ok pts, { s with frameNum := s.frameNum + 1 })
    else (.ok d, { s with frameNum := 1, frameDts := d }) := by
  have e : (avcHZ * 1000 * aacSL).tdiv rate = 92160000 / rate := by
    rw [show avcHZ * 1000 * aacSL = 92160000 from rfl]
    exact Int.tdiv_eq_ediv_of_nonneg (by decide)
  unfold syncAudioTs
  simp only [GoM.bind_apply, GoM.get_apply, e]
  rw [if_neg (by omega)]
  generalize s.frameDts + s.frameNum * (92160000 / rate) = pts
  by_cases hg : -s.syncMs ≤ pts - d ∧ pts - d ≤ s.syncMs
  · rw [if_pos hg, if_pos (by split <;> omega)]; rfl
  · rw [if_neg hg, if_neg (by split <;> omega)]; rfl

theorem sync_ms (s : Sync) (d rate : Int) : (syncAudioTs d rate s).2.syncMs = s.syncMs := by
  unfold syncAudioTs
  simp only [GoM.bind_apply, GoM.get_apply]
  by_cases hr : rate = 0
  · rw [if_pos hr]; rfl
  · rw [if_neg hr]
    generalize (if s.frameDts + s.frameNum * (avcHZ * 1000 * aacSL).tdiv rate ≥ d then s.frameDts + s.frameNum * (avcHZ * 1000 * aacSL).tdiv rate - d
      else d - (s.frameDts + s.frameNum * (avcHZ * 1000 * aacSL).tdiv rate)) = gap
    by_cases hg : gap ≤ s.syncMs
    · rw [if_pos hg]; rfl
    · rw [if_neg hg]; rfl

theorem syncHist_ms {s : Sync} (h : SyncHist s) : s.syncMs = 900 := by
  induction h with
  | new s h => simp [Sync.new, avcHZ] at h; rw [← h]
  | next d r _ ih => rw [sync_ms, ih]

theorem syncRun_inv {rate : Int} (hr : 0 < rate) {s : Sync} {d o : Int} (h : SyncRun rate s d o) :
    s.syncMs = 900 ∧ o + 92160000 / rate = s.frameDts + s.frameNum * (92160000 / rate) ∧ o - d ≤ 900 ∧ d - o ≤ 900 := by
  have step : ∀ (s s' : Sync) (d o : Int), s.syncMs = 900 → syncAudioTs d rate s = (.ok o, s') →
      s'.syncMs = 900 ∧ o + 92160000 / rate = s'.frameDts + s'.frameNum * (92160000 / rate) ∧ o - d ≤ 900 ∧ d - o ≤ 900 := by
    intro s s' d o hs he
    rw [sync_eq s d rate hr] at he
    simp only at he
    split at he
    · rename_i hgap
      simp only [Prod.mk.injEq, Res.ok.injEq] at he
      obtain ⟨h1, h2⟩ := he
      subst h2
      refine ⟨hs, ?_, ?_, ?_⟩
      · rw [← h1]
        simp only [Int.add_mul, Int.one_mul]; omega
      · omega
      · omega
    · simp only [Prod.mk.injEq, Res.ok.injEq] at he
      obtain ⟨h1, h2⟩ := he
      subst h1 h2
      refine ⟨hs, ?_, by omega, by omega⟩
      simp
  induction h with
  | first s s' d o hn he =>
    refine step s s' d o ?_ he
    simp [Sync.new, avcHZ] at hn; rw [← hn]
  | next d' o' s' _ he ih => exact step _ s' d' o' ih.1 he

/-- Whatever the history, the output differs from the packet's time by at most 10 ms (900 ticks). -/
theorem C54_sync_window {s : Sync} (h : SyncHist s) (d rate : Int) (hr : 0 < rate) :
    ∃ o, (syncAudioTs d rate s).1 = .ok o ∧ o - d ≤ 900 ∧ d - o ≤ 900 := by
  have hs := syncHist_ms h
  rw [sync_eq s d rate hr]
  simp only
  split
  · rename_i hgap
    exact ⟨_, rfl, by omega, by omega⟩
  · exact ⟨_, rfl, by omega, by omega⟩

/-- At a constant sample rate each output is the previous one plus 92160000/rate ticks as long as that is within
10 ms of the packet's time, and otherwise the packet's own time. -/
theorem C54_sync_step {rate : Int} (hr : 0 < rate) {s : Sync} {d o : Int} (h : SyncRun rate s d o) (d' : Int) :
    (syncAudioTs d' rate s).1 = .ok
      (if -900 ≤ o + 92160000 / rate - d' ∧ o + 92160000 / rate - d' ≤ 900 then o + 92160000 / rate else d') := by
  obtain ⟨hs, hn, -, -⟩ := syncRun_inv hr h
  rw [sync_eq s d' rate hr]
  simp only
  rw [← hn, hs]
  by_cases hg : -900 ≤ o + 92160000 / rate - d' ∧ o + 92160000 / rate - d' ≤ 900
  · rw [if_pos hg, if_pos hg]
  · rw [if_neg hg, if_neg hg]

/-- While the packet times do not decrease, the outputs never step back by more than 900 ticks. -/
theorem C55_no_step_back {rate : Int} (hr : 0 < rate) {s : Sync} {d o : Int} (h : SyncRun rate s d o) (d' : Int) (hd : d ≤ d') :
    ∃ o', (syncAudioTs d' rate s).1 = .ok o' ∧ o - 900 ≤ o' := by
  obtain ⟨-, -, h1, h2⟩ := syncRun_inv hr h
  refine ⟨_, C54_sync_step hr h d', ?_⟩
  have hinc : 0 ≤ 92160000 / rate := Int.ediv_nonneg (by decide) (by omega)
  split <;> omega

/-- Three packets of 44.1 kHz audio: 2089 ticks apart, then a gap. -/
example : ∃ s, SyncRun 44100 s 7000 4178 ∨ SyncRun 44100 s 7000 7000 := by
  refine ⟨(syncAudioTs 7000 44100 (syncAudioTs 2100 44100 (syncAudioTs 0 44100 { syncMs := 900 }).2).2).2, .inr ?_⟩
  exact .next 7000 7000 _ (.next 2100 2089 _ (.first { syncMs := 900 } _ 0 0 rfl rfl) rfl) rfl

/-! ## C57 -/

/-- `Descriptor.Service` appends a well formed service descriptor. -/
theorem C57_service (t : UInt8) (provider name : Bytes) (h : provider.length + name.length ≤ 252) :
    ∃ c, parseDescriptors 1 (service t provider name) = some [(0x48, c)] ∧ parseService c = some (t.toNat, provider, name) := by
  have hp : (UInt8.ofNat provider.length).toNat = provider.length := by rw [UInt8.toNat_ofNat']; omega
  have hn : (UInt8.ofNat name.length).toNat = name.length := by rw [UInt8.toNat_ofNat']; omega
  have hd : (UInt8.ofNat provider.length + UInt8.ofNat name.length + 3).toNat = provider.length + name.length + 3 := by
    rw [UInt8.toNat_add, UInt8.toNat_add, hp, hn]
    show ((provider.length + name.length) % 2 ^ 8 + 3) % 2 ^ 8 = _
    omega
  have hl : (t :: UInt8.ofNat provider.length :: (provider ++ UInt8.ofNat name.length :: name)).length = provider.length + name.length + 3 := by
    simp; omega
  refine ⟨t :: UInt8.ofNat provider.length :: (provider ++ UInt8.ofNat name.length :: name), ?_, ?_⟩
  · have e : service t provider name = 0x48 :: (UInt8.ofNat provider.length + UInt8.ofNat name.length + 3) ::
        (t :: UInt8.ofNat provider.length :: (provider ++ UInt8.ofNat name.length :: name)) := by
      simp [service]
    rw [e]
    unfold parseDescriptors
    rw [hd, ← hl, if_pos (Nat.le_refl _), List.take_length, List.drop_length]
    rfl
  · simp only [parseService]
    rw [hp, List.drop_left, List.take_left]
    simp only
    rw [if_pos hn]

/-- `Descriptor.NetworkName` appends a well formed descriptor for names of at most 255 bytes. -/
theorem C57_network_name (name : Bytes) (h : name.length ≤ 255) : parseDescriptors 1 (networkName name) = some [(0x40, name)] := by
  have hn : (UInt8.ofNat name.length).toNat = name.length := by rw [UInt8.toNat_ofNat']; omega
  have e : networkName name = 0x40 :: UInt8.ofNat name.length :: name := rfl
  rw [e]
  unfold parseDescriptors
  rw [hn, if_pos (Nat.le_refl _), List.take_length, List.drop_length]
  rfl

example : parseDescriptors 1 (service 1 [0x41, 0x42] [0x43]) = some [(0x48, [1, 2, 0x41, 0x42, 1, 0x43])] := by decide

/-! ## C58 -/

/-- What a failing writer has accepted is a prefix of what a writer that works would have got, and the error is
returned exactly if a `Write` failed.  For every packet, also one that `Mux` rejects or panics on. -/
theorem C58_ts_writer {m : Muxer} (hm : Reach m) (p : Packet) (dts pts : Int) (w : Sink) :
    ∃ pre suf, (mux p dts pts ⟨m, w⟩).2.w.out = w.out ++ pre ∧ (mux p dts pts ⟨m, Sink.mem⟩).2.w.out = pre ++ suf ∧
      ((mux p dts pts ⟨m, w⟩).1 = .err .writer ↔ ∃ k, w.calls ≤ k ∧ k < (mux p dts pts ⟨m, w⟩).2.w.calls ∧ w.plan k ≠ none) ∧
      ((mux p dts pts ⟨m, w⟩).1 = .err .writer ∨ suf = [] ∧ (mux p dts pts ⟨m, w⟩).1 = (mux p dts pts ⟨m, Sink.mem⟩).1) := by
  obtain ⟨a, b, hm⟩ := hm
  have hg := Hist.good hm
  have quiet : ∀ r : Res Unit, r ≠ .err .writer → (∀ w, (mux p dts pts ⟨m, w⟩).1 = r ∧ (mux p dts pts ⟨m, w⟩).2.w = w) →
      ∃ pre suf, (mux p dts pts ⟨m, w⟩).2.w.out = w.out ++ pre ∧ (mux p dts pts ⟨m, Sink.mem⟩).2.w.out = pre ++ suf ∧
      ((mux p dts pts ⟨m, w⟩).1 = .err .writer ↔ ∃ k, w.calls ≤ k ∧ k < (mux p dts pts ⟨m, w⟩).2.w.calls ∧ w.plan k ≠ none) ∧
      ((mux p dts pts ⟨m, w⟩).1 = .err .writer ∨ suf = [] ∧ (mux p dts pts ⟨m, w⟩).1 = (mux p dts pts ⟨m, Sink.mem⟩).1) := by
    intro r hr h
    refine ⟨[], [], by rw [(h w).2, List.append_nil], by rw [(h Sink.mem).2]; rfl, ?_, .inr ⟨rfl, by rw [(h w).1, (h Sink.mem).1]⟩⟩
    rw [(h w).1, (h w).2]
    constructor
    · intro h'; exact absurd h' hr
    · rintro ⟨k, h1, h2, -⟩; omega
  have main : ∀ v key, Kind p v key → Fits v key p pts dts →
      ∃ pre suf, (mux p dts pts ⟨m, w⟩).2.w.out = w.out ++ pre ∧ (mux p dts pts ⟨m, Sink.mem⟩).2.w.out = pre ++ suf ∧
      ((mux p dts pts ⟨m, w⟩).1 = .err .writer ↔ ∃ k, w.calls ≤ k ∧ k < (mux p dts pts ⟨m, w⟩).2.w.calls ∧ w.plan k ≠ none) ∧
      ((mux p dts pts ⟨m, w⟩).1 = .err .writer ∨ suf = [] ∧ (mux p dts pts ⟨m, w⟩).1 = (mux p dts pts ⟨m, Sink.mem⟩).1) := by
    intro v key hk hf
    obtain ⟨m1, h1, -⟩ := mux_any hg hk pts dts hf w
    obtain ⟨m2, h2, -⟩ := mux_reliable hg hk pts dts hf Sink.mem (fun _ => rfl)
    rw [h1, h2]
    generalize (packets v key p.media pts dts (ccOf v m)).map bytesOf = cs
    obtain ⟨-, pre, suf, h3, h4, h5⟩ := runChunks_any cs w
    refine ⟨pre, suf, h4, h3, runChunks_err_iff cs w, ?_⟩
    rcases h5 with h5 | h5
    · exact .inr ⟨h5.2, h5.1⟩
    · exact .inl h5
  by_cases h0 : p.type = 0
  · cases hh : p.asVideo with
    | ok vh =>
      by_cases hf : Fits true vh.isKeyFrame p pts dts
      · exact main _ _ (.video vh h0 hh) hf
      · have hkey : vh.isKeyFrame = true := by
          cases hkk : vh.isKeyFrame with
          | true => rfl
          | false => exfalso; apply hf; intro h; rw [hkk] at h; simp at h
        have hk : Kind p true true := hkey ▸ Kind.video vh h0 hh
        have hl : 176 ≤ pesLen true p pts dts ∧ pesLen true p pts dts < 184 := by
          refine ⟨Nat.le_of_not_lt fun h => hf fun _ => .inl h, Nat.lt_of_not_le fun h => hf fun _ => .inr h⟩
        exact quiet .panic (by simp) fun w =>
          mux_panic p dts pts hk (by rw [pesBytes_length]; omega) (by rw [pesBytes_length]; omega) ⟨m, w⟩ hg.len
    | err e =>
      exfalso
      unfold Packet.asVideo at hh
      cases hx : p.header with
      | none => rw [hx] at hh; simp at hh
      | some h =>
        rw [hx] at hh
        cases hy : h.video <;> simp [hy] at hh
    | panic =>
      refine quiet .panic (by simp) fun w => ?_
      unfold mux
      rw [if_pos (show p.type = PktVideo from h0), hh]
      exact ⟨rfl, rfl⟩
    | diverge =>
      refine quiet .diverge (by simp) fun w => ?_
      unfold mux
      rw [if_pos (show p.type = PktVideo from h0), hh]
      exact ⟨rfl, rfl⟩
  · by_cases h1 : p.type = 1
    · exact main _ _ (.audio h1) (by intro h; simp at h)
    · refine quiet (.err .other) (by simp) fun w => ?_
      unfold mux
      rw [if_neg (show ¬ p.type = PktVideo from h0), if_neg (show ¬ p.type = PktAudio from h1)]
      exact ⟨rfl, rfl⟩

/-- A writer that fails on its second call after 7 bytes. -/
example : (mux { type := 1, media := List.replicate 200 1 } 0 0 ⟨Muxer.new, { out := [], plan := fun k => if k = 1 then some 7 else none }⟩).1 = .err .writer := by
  decide +kernel

/-! ## C90 -/

/-- The code violates C90: in every packet whose two time stamps differ, the four bits before the PTS are 2 (they
have to be 3), and those before the DTS are 3 (they have to be 1). -/
theorem C90_stamp_prefix_refuted (media : Bytes) (pts dts : Int) (hne : pts ≠ dts) :
    ∃ n pes, Pes.new.generate 0 media.length pts dts = .ok (n, pes) ∧
      stampPrefix ((pes.pesHeader.take n).drop 9) = some 2 ∧ stampPrefix ((pes.pesHeader.take n).drop 14) = some 3 := by
  obtain ⟨h, h1, h2, h3⟩ := generate_ok true media.length pts dts
  have hp := (parse_encodeTs false pts).2
  have hd := (parse_encodeTs true dts).2
  obtain ⟨a, b, c, d, e, e1⟩ := encodeTs_lit 0x80 pts
  obtain ⟨a', b', c', d', e', e2⟩ := encodeTs_lit 0xc0 dts
  rw [show encodeTs (if false then 0xc0 else 0x80) pts = _ from e1] at hp
  rw [show encodeTs (if true then 0xc0 else 0x80) dts = _ from e2] at hd
  have hh : pesHead true media.length pts dts = [0, 0, 1, 0xe0, UInt8.ofNat (pesSize (13 + media.length) / 256), UInt8.ofNat (pesSize (13 + media.length)), 0x80, 0xc0, 10]
      ++ [a, b, c, d, e] ++ [a', b', c', d', e'] := by
    unfold pesHead
    rw [if_pos ⟨rfl, hne⟩, e1, e2]
  refine ⟨_, _, h1, ?_, ?_⟩
  · show stampPrefix ((h.take _).drop 9) = _
    rw [h2, hh]; exact hp
  · show stampPrefix ((h.take _).drop 14) = _
    rw [h2, hh]; exact hd

/-- With equal time stamps (and for audio) there is only a PTS, and its prefix is 2 as it has to be.

Full claim: also the prefixes 3 and 1 when both are present. -/
theorem C90_stamp_prefix_partial (v : Bool) (media : Bytes) (pts dts : Int) (he : v = false ∨ pts = dts) :
    ∃ n pes, Pes.new.generate (if v then 0 else 1) media.length pts dts = .ok (n, pes) ∧ n = 14 ∧
      stampPrefix ((pes.pesHeader.take n).drop 9) = some 2 := by
  obtain ⟨h, h1, h2, h3⟩ := generate_ok v media.length pts dts
  have hp := (parse_encodeTs false pts).2
  obtain ⟨a, b, c, d, e, e1⟩ := encodeTs_lit 0x80 pts
  rw [show encodeTs (if false then 0xc0 else 0x80) pts = _ from e1] at hp
  have hh : pesHead v media.length pts dts = [0, 0, 1, if v then 0xe0 else 0xc0, UInt8.ofNat (pesSize (8 + media.length) / 256), UInt8.ofNat (pesSize (8 + media.length)), 0x80, 0x80, 5]
      ++ [a, b, c, d, e] := by
    unfold pesHead
    rw [if_neg (by rintro ⟨h1, h2⟩; rcases he with h | h <;> simp_all), e1]
  refine ⟨_, _, (show (if v then 0 else 1 : Int) = mtype v by cases v <;> rfl) ▸ h1, by rw [hh]; rfl, ?_⟩
  show stampPrefix ((h.take _).drop 9) = _
  rw [h2, hh]; exact hp

/-! ## C91 -/

/-- The code violates C91: the length byte of a country availability descriptor is 4 but five bytes follow, so it does
not parse, whatever the arguments. -/
theorem C91_country_refuted (avail : Bool) (code : UInt32) (n : Nat) :
    parseDescriptors n (countryAvailability avail code) = none := by
  have h : ∃ a b c d e, countryAvailability avail code = [0x49, 4, a, b, c, d, e] := ⟨_, _, _, _, _, rfl⟩
  obtain ⟨a, b, c, d, e, h⟩ := h
  rw [h]
  rcases n with _ | _ | n
  · rfl
  · rfl
  · rfl

/-- C91 fails: the country codes are three letters (24 bits), of which the descriptor keeps 12 bits; codes that differ in the
first letter only cannot be told apart. -/
theorem C91_letters_refuted (avail : Bool) (a a' b c : UInt8) :
    countryAvailability avail (a.toUInt32 <<< 16 ||| b.toUInt32 <<< 8 ||| c.toUInt32) =
      countryAvailability avail (a'.toUInt32 <<< 16 ||| b.toUInt32 <<< 8 ||| c.toUInt32) := by
  have key : ∀ a : UInt8, (a.toUInt32 <<< 16 ||| b.toUInt32 <<< 8 ||| c.toUInt32) &&& (0x0FFF : UInt32) =
      (b.toUInt32 <<< 8 ||| c.toUInt32) &&& (0x0FFF : UInt32) := by
    intro a
    apply UInt32.toBitVec_inj.1
    simp only [UInt32.toBitVec_and, UInt32.toBitVec_or, UInt32.toBitVec_shiftLeft]
    ext i hi
    have h16 : ∀ j : Nat, (0x0FFF : UInt32).toBitVec.getLsbD j = true → j < 16 := by
      intro j hj
      rcases Nat.lt_or_ge j 32 with h | h
      · revert hj; revert j; decide
      · rw [BitVec.getLsbD_of_ge _ _ h] at hj; simp at hj
    cases hm : (0x0FFF : UInt32).toBitVec.getLsbD i with
    | false =>
      have hm' : (4095#32).getLsbD i = false := hm
      simp [← BitVec.getLsbD_eq_getElem, hm']
    | true =>
      have := h16 i hm
      simp [← BitVec.getLsbD_eq_getElem, this]
  rw [countryAvailability, countryAvailability, key a, key a']

/-- USA and GSA. -/
example : countryAvailability true 0x555341 = countryAvailability true 0x475341 :=
  C91_letters_refuted true 0x55 0x47 0x53 0x41

/-- C91 (partial): tag and availability flag are right, the other bits of the byte with the flag are zero, and it is the low 12 bits of
the number that are sent.  Missing: the length and the other bits, see above. -/
theorem C91_flag_partial (avail : Bool) (code : UInt32) :
    ∃ l f c2 c1, countryAvailability avail code = [0x49, l, f, 0, 0, c2, c1] ∧ f.toNat = (if avail then 128 else 0) ∧
      c2.toNat * 256 + c1.toNat = code.toNat % 4096 := by
  refine ⟨4, if avail then 0x80 else 0, ((code &&& 0x0FFF) >>> 8).toUInt8, (code &&& 0x0FFF).toUInt8, ?_, by cases avail <;> decide, ?_⟩
  · have h : ∀ k : UInt32, 16 ≤ k → k < 32 → ((code &&& 0x0FFF) >>> k).toUInt8 = 0 := by
      intro k hk hk'
      apply UInt8.toNat_inj.1
      have := UInt32.lt_iff_toNat_lt.1 hk'
      have h2 := UInt32.le_iff_toNat_le.1 hk
      simp only [UInt32.toNat_toUInt8, UInt32.toNat_shiftRight, UInt32.toNat_and, UInt32.reduceToNat] at *
      have hx : code.toNat &&& 4095 < 2 ^ 16 := Nat.lt_of_le_of_lt Nat.and_le_right (by decide)
      rw [Nat.mod_eq_of_lt this, Nat.shiftRight_eq_div_pow, Nat.div_eq_of_lt (Nat.lt_of_lt_of_le hx (Nat.pow_le_pow_right (by decide) h2))]
      rfl
    simp only [countryAvailability, be32, h 24 (by decide) (by decide), h 16 (by decide) (by decide), List.cons_append, List.nil_append]
  · simp only [UInt32.toNat_toUInt8, UInt32.toNat_shiftRight, UInt32.toNat_and, UInt32.reduceToNat, Nat.shiftRight_eq_div_pow]
    have : code.toNat &&& 4095 = code.toNat % 4096 := Nat.and_two_pow_sub_one_eq_mod code.toNat 12
    rw [this, show 2 ^ (8 % 32) = 256 from rfl]
    omega

/-- USA: the letters S and A, the first of them without its upper half. -/
example : countryAvailability true 0x555341 = [0x49, 4, 0x80, 0, 0, 0x03, 0x41] := by decide

/-! ## C92 -/

/-- The code violates C92: the continuity counter of the SDT is always 0. -/
theorem C92_sdt_counter_refuted {m : Muxer} (h : Reach m) (desc : Bytes) (hd : desc.length ≤ 163) :
    ∃ out t, (sdt desc m).1 = .ok out ∧ parsePacket out = some t ∧ t.cc = 0 := by
  obtain ⟨a, b, h⟩ := h
  have hg := Hist.good h
  have hl : (sdtSec desc).length = 16 + desc.length := by simp [sdtSec]; omega
  exact ⟨tabPacket 0x40 0x11 0 (sdtSec desc), _, by rw [sdt_eq, sdtBytes_ok desc m.sdt hg.sdt hd],
    parse_tabPacket 0x40 0x11 0 (sdtSec desc) (by omega) (by decide) (by decide), rfl⟩

end Ts
end Verif.Props
