import Verif.Spec.TsHelpers
import Verif.Props.Ts
/-!
# Properties C163 and C164: the exported functions behind `Mux`, used directly

`PesUsed` (`Verif/Spec/TsHelpers.lean`) are the `Pes` objects that a caller can have; `parsePes` and `parseAdaptation` are the
reading side of `Verif/Spec/Ts.lean`.
-/
namespace Verif.Props
open Verif Verif.Ts Verif.Spec Verif.Spec.Ts

/-! ## C163 -/

/-- The flags after `k` headers with both stamps. -/
def pesFlags (k : Nat) : UInt8 := if k = 0 then 0x80 else 0xc0

/-- The state of a `Pes` object. -/
def PesState (k : Nat) (p : Verif.Ts.Pes) : Prop :=
  ∃ s l1 l0 : UInt8, ∃ a b : Bytes, a.length = 5 ∧ b.length = 5 ∧
    p = ⟨[0x47, 0, 0, 0x10], [0, 0, 1, s, l1, l0, 0x80, pesFlags k, UInt8.ofNat (5 + 5 * k)] ++ a ++ b⟩

theorem five {a : Bytes} (h : a.length = 5) : ∃ x y z u v, a = [x, y, z, u, v] := by
  match a, h with
  | [x, y, z, u, v], _ => exact ⟨x, y, z, u, v, rfl⟩

theorem pesFlags_or (k : Nat) : pesFlags k ||| 64 = 0xc0 := by
  unfold pesFlags; split <;> decide

/-- The header of a frame in an object that has made `k` headers with both stamps. -/
theorem generate_one {k : Nat} {p : Verif.Ts.Pes} (hp : PesState k p) (mt : Int) (hm : mt = 0 ∨ mt = 1) (len : Nat) (pts dts : Int)
    (hc : ¬ (mt = 0 ∧ pts ≠ dts)) :
    ∃ p' b, p.generate mt len pts dts = .ok (9 + (5 + 5 * k) % 256, p') ∧ PesState k p' ∧ b.length = 5 ∧
      p'.pesHeader = [0, 0, 1, if mt = 0 then 0xe0 else 0xc0, UInt8.ofNat (pesSize (3 + (5 + 5 * k) % 256 + len) / 256),
        UInt8.ofNat (pesSize (3 + (5 + 5 * k) % 256 + len)), 0x80, pesFlags k, UInt8.ofNat (5 + 5 * k)] ++ encodeTs (pesFlags k) pts ++ b := by
  obtain ⟨s, l1, l0, a, b, ha, hb, rfl⟩ := hp
  obtain ⟨x, y, z, u, v, rfl⟩ := five ha
  obtain ⟨x', y', z', u', v', rfl⟩ := five hb
  obtain ⟨c0, c1, c2, c3, c4, he⟩ := encodeTs_lit (pesFlags k) pts
  have e1 : ¬ (mt ≠ PktVideo ∧ mt ≠ PktAudio) := by
    rcases hm with rfl | rfl <;> decide
  have e2 : ¬ (mt = PktVideo ∧ pts ≠ dts) := hc
  refine ⟨⟨[0x47, 0, 0, 0x10], [0, 0, 1, if mt = 0 then 0xe0 else 0xc0, UInt8.ofNat (pesSize (3 + (5 + 5 * k) % 256 + len) / 256),
        UInt8.ofNat (pesSize (3 + (5 + 5 * k) % 256 + len)), 0x80, pesFlags k, UInt8.ofNat (5 + 5 * k)] ++ encodeTs (pesFlags k) pts
          ++ [x', y', z', u', v']⟩,
    [x', y', z', u', v'], ?_, ?_, rfl, ?_⟩
  · unfold Pes.generate
    rw [if_neg e1]
    simp only [if_neg e2]
    rw [he]
    rcases hm with rfl | rfl <;> simp [goSet, goIndex, goCopyAt, he, videoSID, audioSID, PktVideo, pesSize]
  · exact ⟨_, _, _, encodeTs (pesFlags k) pts, _, rfl, rfl, rfl⟩
  · rfl

theorem generate_both {k : Nat} {p : Verif.Ts.Pes} (hp : PesState k p) (len : Nat) (pts dts : Int) (hne : pts ≠ dts) :
    ∃ p', p.generate 0 len pts dts = .ok (9 + (5 + 5 * (k + 1)) % 256, p') ∧ PesState (k + 1) p' ∧
      p'.pesHeader = [0, 0, 1, 0xe0, UInt8.ofNat (pesSize (3 + (5 + 5 * (k + 1)) % 256 + len) / 256),
        UInt8.ofNat (pesSize (3 + (5 + 5 * (k + 1)) % 256 + len)), 0x80, 0xc0, UInt8.ofNat (5 + 5 * (k + 1))]
        ++ encodeTs (pesFlags k) pts ++ encodeTs 0xc0 dts := by
  obtain ⟨s, l1, l0, a, b, ha, hb, rfl⟩ := hp
  obtain ⟨x, y, z, u, v, rfl⟩ := five ha
  obtain ⟨x', y', z', u', v', rfl⟩ := five hb
  obtain ⟨c0, c1, c2, c3, c4, he⟩ := encodeTs_lit (pesFlags k) pts
  obtain ⟨d0, d1, d2, d3, d4, hd⟩ := encodeTs_lit 0xc0 dts
  have e2 : ((0 : Int) = PktVideo ∧ pts ≠ dts) := ⟨rfl, hne⟩
  have e5 : UInt8.ofNat (5 + 5 * k) + 5 = UInt8.ofNat (5 + 5 * (k + 1)) := by
    apply UInt8.toNat_inj.mp; simp [UInt8.toNat_add, UInt8.toNat_ofNat']; omega
  refine ⟨⟨[0x47, 0, 0, 0x10], [0, 0, 1, 0xe0, UInt8.ofNat (pesSize (3 + (5 + 5 * (k + 1)) % 256 + len) / 256),
        UInt8.ofNat (pesSize (3 + (5 + 5 * (k + 1)) % 256 + len)), 0x80, 0xc0, UInt8.ofNat (5 + 5 * (k + 1))]
        ++ encodeTs (pesFlags k) pts ++ encodeTs 0xc0 dts⟩, ?_, ?_, ?_⟩
  · unfold Pes.generate
    rw [if_neg (by decide)]
    simp only [if_pos e2]
    rw [he, hd]
    simp only [goSet, goIndex, goCopyAt, orAt, he, videoSID]
    simp [goSet, goIndex, goCopyAt, orAt, he, videoSID, PktVideo, pesSize, pesFlags_or, e5, hd]
    rw [show 5 + 5 * (k + 1) = 5 + 5 * k + 5 from by omega]
    exact ⟨rfl, rfl, rfl, by simpa using e5⟩
  · exact ⟨0xe0, _, _, encodeTs (pesFlags k) pts, encodeTs 0xc0 dts, rfl, rfl, by rw [show pesFlags (k + 1) = 0xc0 from rfl]⟩
  · rfl

theorem generate_other (p : Verif.Ts.Pes) (mt : Int) (h : ¬ (mt = 0 ∨ mt = 1)) (len : Nat) (pts dts : Int) :
    p.generate mt len pts dts = .ok (0, p) := by
  unfold Pes.generate
  rw [if_pos ⟨fun q => h (.inl q), fun q => h (.inr q)⟩]
  rfl

theorem used_state {k : Nat} {p : Verif.Ts.Pes} (h : PesUsed k p) : PesState k p := by
  induction h with
  | new => exact ⟨0xc0, 0xff, 0xff, [0, 0, 0, 0, 0], [0, 0, 0, 0, 0], rfl, rfl, rfl⟩
  | one mt len pts dts _ hg hc ih =>
    by_cases hm : mt = 0 ∨ mt = 1
    · obtain ⟨p', b, e, hs, -⟩ := generate_one ih mt hm len pts dts hc
      rw [hg] at e; cases e; exact hs
    · rw [generate_other _ mt hm] at hg; cases hg; exact ih
  | both len pts dts _ hg hne ih =>
    obtain ⟨p', e, hs, -⟩ := generate_both ih len pts dts hne
    rw [hg] at e; cases e; exact hs

/-- No call of `GeneratePesHeader` fails, whatever the object was used for before. -/
theorem C163_total {k : Nat} {p : Verif.Ts.Pes} (h : PesUsed k p) (mt : Int) (len : Nat) (pts dts : Int) :
    ∃ n p', p.generate mt len pts dts = .ok (n, p') := by
  by_cases hm : mt = 0 ∨ mt = 1
  · by_cases hc : mt = 0 ∧ pts ≠ dts
    · obtain ⟨rfl, hne⟩ := hc
      obtain ⟨p', e, -⟩ := generate_both (used_state h) len pts dts hne
      exact ⟨_, _, e⟩
    · obtain ⟨p', b, e, -⟩ := generate_one (used_state h) mt hm len pts dts hc
      exact ⟨_, _, e⟩
  · exact ⟨_, _, generate_other _ mt hm _ _ _⟩

/-- As long as no header with both stamps was made, the object makes the same header as a new one.

Full claim: the same for every object in `PesUsed k`. -/
theorem C163_reuse_partial {p : Verif.Ts.Pes} (h : PesUsed 0 p) (v : Bool) (media : Bytes) (pts dts : Int)
    (hp : 0 ≤ pts ∧ pts < 2 ^ 33) (hd : 0 ≤ dts ∧ dts < 2 ^ 33) :
    ∃ n p' p'' q, p.generate (if v then 0 else 1) media.length pts dts = .ok (n, p') ∧
      Pes.new.generate (if v then 0 else 1) media.length pts dts = .ok (n, p'') ∧ n ≤ p'.pesHeader.length ∧
      p'.pesHeader.take n = p''.pesHeader.take n ∧ p'.tsHeader = [0x47, 0x00, 0x00, 0x10] ∧
      parsePes (p'.pesHeader.take n ++ media) = some q ∧ q.streamId = (if v then 0xe0 else 0xc0) ∧ q.pts = pts.toNat ∧
      q.dts = (if v = true ∧ pts ≠ dts then some dts.toNat else none) ∧ q.data = media := by
  obtain ⟨n, p'', q, h1, h2, h3⟩ := C50_pes_stamps v media pts dts hp hd
  have h0 := used_state h
  have h0' := used_state PesUsed.new
  by_cases hc : (if v then (0 : Int) else 1) = 0 ∧ pts ≠ dts
  · obtain ⟨hv, hne⟩ := hc
    cases v with
    | false => simp at hv
    | true =>
      obtain ⟨a, ea, ⟨s, l1, l0, _, _, _, _, ra⟩, sa⟩ := generate_both h0 media.length pts dts hne
      obtain ⟨c, ec, -, sc⟩ := generate_both h0' media.length pts dts hne
      simp only [if_true] at h1 ⊢
      rw [h1] at ec
      cases ec
      have e : a.pesHeader = p''.pesHeader := by rw [sa, sc]
      refine ⟨_, a, p'', q, ea, h1, ?_, by rw [e], by rw [ra], by rw [e]; exact h2, by simpa using h3⟩
      rw [sa]; simp [encodeTs_length]
  · obtain ⟨a, b, ea, ⟨s, l1, l0, _, _, _, _, ra⟩, hb, sa⟩ := generate_one h0 (if v then 0 else 1) (by cases v <;> simp) media.length pts dts hc
    obtain ⟨c, b', ec, -, hb', sc⟩ := generate_one h0' (if v then 0 else 1) (by cases v <;> simp) media.length pts dts hc
    rw [h1] at ec
    cases ec
    have e : a.pesHeader.take 14 = p''.pesHeader.take 14 := by rw [sa, sc]; rfl
    refine ⟨14, a, p'', q, ea, h1, ?_, e, by rw [ra], by rw [e]; exact h2, h3⟩
    rw [sa]; simp [encodeTs_length, hb]

theorem parse_flags_both (z0 z1 o sid l1 l0 f1 n : UInt8) (rest : Bytes) (q : Spec.Ts.Pes)
    (h : parsePes (z0 :: z1 :: o :: sid :: l1 :: l0 :: f1 :: 0xc0 :: n :: rest) = some q) : q.dts ≠ none := by
  unfold parsePes at h
  simp only at h
  split at h
  · unfold parseStamps at h
    rw [if_neg (by decide), if_pos (by decide)] at h
    generalize parseStamp (List.take 5 (List.take n.toNat rest)) = x at h
    generalize parseStamp (List.drop 5 (List.take n.toNat rest)) = y at h
    cases x <;> cases y <;> simp at h
    subst h; simp
  · cases h

/-- The code violates C163 for every object that has made a header with both stamps: whatever it is used for later, no later header says
that there is no DTS, although audio has none. -/
theorem C163_audio_refuted {k : Nat} {p : Verif.Ts.Pes} (h : PesUsed (k + 1) p) (media : Bytes) (pts dts : Int) :
    ∃ n p', p.generate 1 media.length pts dts = .ok (n, p') ∧
      ∀ q, parsePes (p'.pesHeader.take n ++ media) = some q → q.dts ≠ none := by
  obtain ⟨p', b, e, -, hb, hs⟩ := generate_one (used_state h) 1 (.inr rfl) media.length pts dts (by simp)
  refine ⟨_, p', e, fun q hq => ?_⟩
  rw [hs] at hq
  rw [show 9 + (5 + 5 * (k + 1)) % 256 = (5 + 5 * (k + 1)) % 256 + 9 from by omega] at hq
  simp only [List.cons_append, List.nil_append, List.take_succ_cons] at hq
  exact parse_flags_both _ _ _ _ _ _ _ _ _ _ hq

/-- The second header with both stamps is said to be longer than the header in the object, so that it cannot be taken out of it. -/
theorem C163_length_refuted (l1 l2 : Nat) (t1 d1 t2 d2 : Int) (h1 : t1 ≠ d1) (h2 : t2 ≠ d2) :
    ∃ p p', Pes.new.generate 0 l1 t1 d1 = .ok (19, p) ∧ p.generate 0 l2 t2 d2 = .ok (24, p') ∧ p'.pesHeader.length = 19 ∧
      goSlice p'.pesHeader 0 24 = .panic := by
  obtain ⟨p, e, hs, -⟩ := generate_both (used_state PesUsed.new) l1 t1 d1 h1
  obtain ⟨p', e', -, hh⟩ := generate_both hs l2 t2 d2 h2
  have hl : p'.pesHeader.length = 19 := by rw [hh]; simp [encodeTs_length]
  refine ⟨p, p', e, e', hl, ?_⟩
  unfold goSlice
  rw [hl, if_neg (by decide)]

/-- Objects with and without such a header, used several times. -/
example : (∃ p, PesUsed 0 p ∧ p ≠ Pes.new) ∧ ∃ p, PesUsed 1 p :=
  ⟨⟨_, .one 1 7 5 5 .new (n := 14) (p' := ⟨[71, 0, 0, 16], [0, 0, 1, 192, 0, 15, 128, 128, 5, 33, 0, 1, 0, 11, 0, 0, 0, 0, 0]⟩)
      (by decide +kernel) (by decide), by decide⟩,
    ⟨_, .both 7 5 6 .new (n := 19) (p' := ⟨[71, 0, 0, 16], [0, 0, 1, 224, 0, 20, 128, 192, 10, 33, 0, 1, 0, 11, 49, 0, 1, 0, 13]⟩)
      (by decide +kernel) (by decide)⟩⟩

/-! ## C164 -/

/-- The first `n` bytes of `src` become an adaptation field without flags, `n` bytes with its length byte; the bytes behind it and the
bytes of the packet in front of it stay.

Full claim: the same for every `n` from 0. -/
theorem C164_stuff_partial (pre src : Bytes) (n : UInt8) (h1 : 1 ≤ n.toNat) (h2 : n.toNat ≤ src.length) :
    ∃ field, writeStuff (pre ++ src) pre.length n = .ok (pre ++ (UInt8.ofNat field.length :: field) ++ src.drop n.toNat) ∧
      field.length + 1 = n.toNat ∧ parseAdaptation field = some ⟨false, none⟩ := by
  refine ⟨stuffing (n.toNat - 1), ?_, ?_, ?_⟩
  · rw [writeStuff_ok pre src _ n rfl h1 h2, stuffing_length]; simp
  · rw [stuffing_length]; omega
  · unfold stuffing
    split
    · rfl
    · simp [parseAdaptation]

theorem goSet_out {α} (l : List α) (i : Nat) (x : α) (h : l.length ≤ i) : goSet l i x = .panic := by
  unfold goSet
  rw [if_neg (by omega), if_neg (by simp; omega)]

theorem stuffLoop_out (off last : Nat) (fuel i : Nat) (buf : Bytes) (h : buf.length ≤ off + last) (hi : i ≤ last)
    (hf : last - i < fuel) : stuffLoop off last fuel i buf = .panic := by
  induction fuel generalizing i buf with
  | zero => omega
  | succ fuel ih =>
    unfold stuffLoop
    rw [if_pos hi]
    by_cases hb : buf.length ≤ off + i
    · rw [goSet_out _ _ _ hb]; rfl
    · have e : goSet buf ((off + i : Nat) : Int) 0xff = .ok (buf.set (off + i) 0xff) := by
        unfold goSet
        rw [if_neg (by omega), Int.toNat_natCast, if_pos (by omega)]
      rw [e]
      simp only [Res.bind_ok]
      by_cases hl : i = last
      · omega
      · exact ih (i + 1) _ (by simpa using h) (by omega) (by omega)

theorem writeStuff_out (pre src : Bytes) (n : UInt8) (h : src.length ≤ (n - 1).toNat) :
    writeStuff (pre ++ src) pre.length n = .panic := by
  unfold writeStuff
  rw [if_neg (by simp)]
  cases src with
  | nil => simp only [List.append_nil]; rw [goSet_out _ _ _ (Nat.le_refl _)]; rfl
  | cons x src =>
    simp only
    rw [goSet_at pre x _ src _ rfl]
    simp only [Res.bind_ok]
    simp only [List.length_cons] at h
    rw [if_pos (UInt8.lt_iff_toNat_lt.mpr (by simp; omega))]
    cases src with
    | nil => rw [goSet_out _ _ _ (by simp)]; rfl
    | cons y src =>
      rw [show pre ++ (n - 1) :: y :: src = (pre ++ [n - 1]) ++ y :: src from by simp, goSet_at (pre ++ [n - 1]) y _ src _ (by simp)]
      simp only [Res.bind_ok]
      simp only [List.length_cons] at h
      exact stuffLoop_out _ _ _ _ _ (by simp; omega) (by omega) (by have := (n - 1).toNat_lt; omega)

theorem writeStuff_all (pre src : Bytes) (n : UInt8) (h : (n - 1).toNat < src.length) (hz : 1 ≤ (n - 1).toNat) :
    writeStuff (pre ++ src) pre.length n
      = .ok (pre ++ ((n - 1) :: 0x00 :: List.replicate ((n - 1).toNat - 1) 0xff) ++ src.drop ((n - 1).toNat + 1)) := by
  unfold writeStuff
  have hlt := (n - 1).toNat_lt
  generalize n - 1 = m at *
  rw [if_neg (by simp)]
  obtain ⟨x, y, rest, rfl⟩ : ∃ x y r, src = x :: y :: r := by
    match src, h with
    | [x], h => simp at h; omega
    | x :: y :: r, _ => exact ⟨x, y, r, rfl⟩
  simp only
  rw [goSet_at pre x _ _ _ rfl]
  simp only [Res.bind_ok]
  rw [if_pos (UInt8.lt_iff_toNat_lt.mpr (by simp; omega)), show pre ++ m :: y :: rest = (pre ++ [m]) ++ y :: rest from by simp,
    goSet_at (pre ++ [m]) y _ rest _ (by simp)]
  simp only [Res.bind_ok]
  simp only [List.length_cons] at h
  rw [show pre ++ [m] ++ (0 : UInt8) :: rest = (pre ++ [m, 0]) ++ rest from by simp,
    stuffLoop_ok _ m.toNat 256 2 (pre ++ [m, 0]) rest (by simp) (by omega) (by omega) (by omega)]
  obtain ⟨k, hk⟩ : ∃ k, m.toNat = k + 1 := ⟨m.toNat - 1, by omega⟩
  simp [hk]

/-- Too small a part of the packet: the call panics, it does not write less. -/
theorem C164_stuff_short (pre src : Bytes) (n : UInt8) (h1 : 1 ≤ n.toNat) (h2 : src.length < n.toNat) :
    writeStuff (pre ++ src) pre.length n = .panic := by
  apply writeStuff_out
  have := n.toNat_lt
  rw [UInt8.toNat_sub, show (1 : UInt8).toNat = 1 from rfl]; omega

/-- The code violates C164 for no bytes at all: 256 bytes are overwritten and, if there are fewer, the call panics. -/
theorem C164_stuff_zero_refuted (pre src : Bytes) :
    (src.length < 256 → writeStuff (pre ++ src) pre.length 0 = .panic) ∧
    (256 ≤ src.length → writeStuff (pre ++ src) pre.length 0 = .ok (pre ++ (0xff :: 0x00 :: List.replicate 254 0xff) ++ src.drop 256)) := by
  refine ⟨fun h => writeStuff_out _ _ _ (by rw [show ((0 : UInt8) - 1).toNat = 255 from rfl]; omega), fun h => ?_⟩
  have e0 : ((0 : UInt8) - 1).toNat = 255 := rfl
  have e1 : (0 : UInt8) - 1 = 0xff := by decide
  rw [writeStuff_all pre src 0 (by rw [e0]; omega) (by rw [e0]; omega), e0, e1]

/-- `WritePcr` puts the clock into the first six bytes: read with the flag of the PCR in front it is `pcr` mod 2^33 with extension 0,
and the bytes around it stay. -/
theorem C164_pcr (pre : Bytes) (buf : Bytes) (h : 6 ≤ buf.length) (pcr : Int) :
    ∃ six, six.length = 6 ∧ writePcr (pre ++ buf) pre.length pcr = .ok (pre ++ six ++ buf.drop 6) ∧
      parseAdaptation (0x10 :: six) = some ⟨false, some ((pcr % 2 ^ 33).toNat, 0)⟩ := by
  match buf, h with
  | a :: b :: c :: d :: e :: f :: rest, _ =>
    refine ⟨(pcrField pcr).drop 1, rfl, by rw [writePcr_ok pre a b c d e f rest _ rfl]; simp, ?_⟩
    have hp := parse_pcrField pcr
    have key : ∀ s : Bytes, parseAdaptation (0x50 :: s) = some ⟨true, some ((pcr % 2 ^ 33).toNat, 0)⟩ →
        parseAdaptation (0x10 :: s) = some ⟨false, some ((pcr % 2 ^ 33).toNat, 0)⟩ := by
      intro s hs
      unfold parseAdaptation at hs ⊢
      simp only at hs ⊢
      rw [if_neg (by decide), if_pos (by decide)] at hs ⊢
      split at hs
      · split at hs
        · simp_all
          assumption
        · cases hs
      · cases hs
    exact key _ hp

/-- With fewer than six bytes the call panics. -/
theorem C164_pcr_short (pre : Bytes) (buf : Bytes) (h : buf.length < 6) (pcr : Int) :
    writePcr (pre ++ buf) pre.length pcr = .panic := by
  have key : ∀ (l : Bytes) (i : Nat) (x : UInt8) (f : Bytes → Res Bytes), (∀ l' : Bytes, l'.length = l.length → f l' = .panic) →
      (goSet l i x >>= f) = .panic := by
    intro l i x f hf
    by_cases hb : l.length ≤ i
    · rw [goSet_out _ _ _ hb]; rfl
    · have e : goSet l (i : Int) x = .ok (l.set i x) := by
        unfold goSet
        rw [if_neg (by omega), if_pos (by simp; omega)]; simp
      rw [e]
      exact hf _ (by simp)
  unfold writePcr
  refine key _ _ _ _ fun l0 h0 => key _ _ _ _ fun l1 h1 => key _ _ _ _ fun l2 h2 => key _ _ _ _ fun l3 h3 => key _ _ _ _ fun l4 h4 => ?_
  apply goSet_out
  simp at h0
  omega

/-- The hypotheses in a packet: five bytes of stuffing, and a clock of more than 33 bits. -/
example : writeStuff [0x47, 1, 2, 3, 9, 9, 9, 9, 9, 8] 4 5 = .ok [0x47, 1, 2, 3, 4, 0, 0xff, 0xff, 0xff, 8] ∧
    writePcr [7, 1, 2, 3, 4, 5, 6, 8] 1 (2 ^ 33 + 3) = .ok [7, 0, 0, 0, 1, 0xfe, 0, 8] := by decide +kernel

end Verif.Props
