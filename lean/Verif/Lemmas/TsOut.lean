import Verif.Lemmas.TsMux
import Verif.Spec.TsHistory
/-! # Lemmas about what `Mux` writes -/
namespace Verif.Ts
open Verif.Spec.Ts (TsPacket Kind)

/-- The bytes of the PES packet. -/
def pesBytes (v : Bool) (media : Bytes) (pts dts : Int) : Bytes := pesHead v media.length pts dts ++ media

theorem pesHead_pos (v : Bool) (n : Nat) (pts dts : Int) : 14 ≤ (pesHead v n pts dts).length ∧ (pesHead v n pts dts).length ≤ 19 := by
  rw [pesHead_length]; split <;> omega

theorem _root_.Verif.Spec.Ts.Kind.type' {p : Packet} {v key : Bool} (h : Kind p v key) : p.type = mtype v := by
  cases h with
  | video vh ht _ => exact ht
  | audio ht => exact ht

theorem mux_eq (p : Packet) (v key : Bool) (dts pts : Int) (hk : Kind p v key) :
    ∃ h : Bytes, h.take (pesHead v p.media.length pts dts).length = pesHead v p.media.length pts dts ∧ h.length = 19 ∧
      mux p dts pts = muxLoop p key dts ⟨[0x47, (pidOf v >>> 8).toUInt8, (pidOf v).toUInt8, 0x10], h⟩ ((pesBytes v p.media pts dts).length + 1)
        { total := (pesBytes v p.media pts dts).length, hdrLen := (pesHead v p.media.length pts dts).length, headIndex := 0,
          dataIndex := 0, first := true } := by
  obtain ⟨h, h1, h2, h3⟩ := generate_ok v p.media.length pts dts
  refine ⟨h, h2, h3, ?_⟩
  have hl : p.media.length + (pesHead v p.media.length pts dts).length = (pesBytes v p.media pts dts).length := by
    unfold pesBytes; simp [Nat.add_comm]
  funext e
  unfold mux
  cases hk with
  | video vh ht hh =>
    have h1' : Pes.new.generate p.type p.media.length pts dts = .ok ((pesHead true p.media.length pts dts).length, ⟨[0x47, 0, 0, 0x10], h⟩) := by
      rw [ht]; exact h1
    rw [if_pos (show p.type = PktVideo from ht)]
    simp only [GoM.bind_apply, GoM.lift_apply, hh, GoM.pure_apply, h1', hl]
    rfl
  | audio ht =>
    have h1' : Pes.new.generate p.type p.media.length pts dts = .ok ((pesHead false p.media.length pts dts).length, ⟨[0x47, 0, 0, 0x10], h⟩) := by
      rw [ht]; exact h1
    rw [if_neg (by rw [ht]; decide), if_pos (show p.type = PktAudio from ht)]
    simp only [GoM.bind_apply, GoM.lift_apply, GoM.pure_apply, h1', hl]
    rfl

/-- The packets of a `Mux` call. -/
def packets (v key : Bool) (media : Bytes) (pts dts : Int) (cc : UInt8) : List TsPacket :=
  cut v key dts ((pesBytes v media pts dts).length + 1) true cc (pesBytes v media pts dts)

theorem mux_ok (p : Packet) (v key : Bool) (dts pts : Int) (hk : Kind p v key)
    (hlen : key = true → (pesBytes v p.media pts dts).length < 176 ∨ 184 ≤ (pesBytes v p.media pts dts).length) (e : Env) (hb : e.m.tsPacket.length = 188) :
    let cs := (packets v key p.media pts dts (ccOf v e.m)).map bytesOf
    ∃ m', mux p dts pts e = ((runChunks cs e.w).1, ⟨m', (runChunks cs e.w).2⟩)
      ∧ After v ((runChunks cs e.w).2.calls - e.w.calls) e.m m' := by
  obtain ⟨h, h2, h3, h4⟩ := mux_eq p v key dts pts hk
  rw [h4]
  have := pesHead_pos v p.media.length pts dts
  refine muxLoop_ok p v key dts h hk.type' ((pesBytes v p.media pts dts).length + 1)
        { total := (pesBytes v p.media pts dts).length, hdrLen := (pesHead v p.media.length pts dts).length, headIndex := 0,
          dataIndex := 0, first := true } (pesBytes v p.media pts dts) ?_ rfl (Nat.zero_le _) ?_ this.2 ?_ ?_ e hb
  · simp only [List.drop_zero, h2]; rfl
  · show 0 + (pesHead v p.media.length pts dts).length ≤ h.length; omega
  · intro hf; exact hlen (by simpa using hf)
  · exact Nat.lt_succ_self _

/-! ## What the packets carry -/

theorem cut_payload (v key : Bool) (dts : Int) (fuel : Nat) (first : Bool) (cc : UInt8) (data : Bytes) (hf : data.length ≤ fuel)
    (hs : (first && key) = true → 176 ≤ data.length) :
    Spec.Ts.payload (cut v key dts fuel first cc data) = data := by
  induction fuel generalizing first cc data with
  | zero => simp [List.length_eq_zero_iff.mp (Nat.le_zero.mp hf), cut, Spec.Ts.payload]
  | succ fuel ih =>
    simp only [cut]
    split
    · rename_i h; simp [h, Spec.Ts.payload]
    · rename_i h
      have hpos : 0 < data.length := List.length_pos_iff.mpr h
      split
      · rename_i hk; have := hs hk.1; omega
      split
      · have := ih false (nextCc cc) (data.drop 176) (by simp; omega) (by simp)
        simp only [Spec.Ts.payload, List.flatMap_cons] at this ⊢
        rw [this, List.take_append_drop]
      · split
        · simp [Spec.Ts.payload]
        · have := ih false (nextCc cc) (data.drop 184) (by simp; omega) (by simp)
          simp only [Spec.Ts.payload, List.flatMap_cons] at this ⊢
          rw [this, List.take_append_drop]

theorem cut_pid (v key : Bool) (dts : Int) (fuel : Nat) (first : Bool) (cc : UInt8) (data : Bytes) :
    ∀ t ∈ cut v key dts fuel first cc data, t.pid = (pidOf v).toNat := by
  induction fuel generalizing first cc data with
  | zero => simp [cut]
  | succ fuel ih =>
    intro t ht
    simp only [cut] at ht
    split at ht
    · simp at ht
    split at ht
    · simp only [List.mem_singleton] at ht; subst ht; rfl
    · split at ht
      · rcases List.mem_cons.mp ht with rfl | ht
        · rfl
        · exact ih _ _ _ t ht
      · split at ht
        · simp only [List.mem_singleton] at ht; subst ht; rfl
        · rcases List.mem_cons.mp ht with rfl | ht
          · rfl
          · exact ih _ _ _ t ht

theorem cut_cc (v key : Bool) (dts : Int) (fuel : Nat) (first : Bool) (cc : UInt8) (data : Bytes) (hc : cc.toNat < 16) (i : Nat)
    (t : TsPacket) (ht : (cut v key dts fuel first cc data)[i]? = some t) : t.cc = (cc.toNat + 1 + i) % 16 := by
  induction fuel generalizing first cc data i with
  | zero => simp [cut] at ht
  | succ fuel ih =>
    have hn := nextCc_toNat cc hc
    have hn' : (nextCc cc).toNat < 16 := by omega
    have rest : ∀ (x : TsPacket) (data' : Bytes), x.cc = (nextCc cc).toNat →
        (x :: cut v key dts fuel false (nextCc cc) data')[i]? = some t → t.cc = (cc.toNat + 1 + i) % 16 := by
      intro x data' hx hxt
      cases i with
      | zero =>
        simp only [List.getElem?_cons_zero, Option.some.injEq] at hxt
        rw [← hxt, hx, hn]
      | succ i =>
        rw [List.getElem?_cons_succ] at hxt
        have := ih false (nextCc cc) data' hn' i hxt
        rw [this, hn]; omega
    simp only [cut] at ht
    split at ht
    · simp at ht
    split at ht
    · cases i with
      | zero =>
        simp only [List.getElem?_cons_zero, Option.some.injEq] at ht
        rw [← ht, hn]
      | succ i => simp at ht
    · split at ht
      · exact rest _ _ rfl ht
      · split at ht
        · cases i with
          | zero =>
            simp only [List.getElem?_cons_zero, Option.some.injEq] at ht
            rw [← ht, hn]
          | succ i => simp at ht
        · exact rest _ _ rfl ht

theorem cut_start_false (v key : Bool) (dts : Int) (fuel : Nat) (cc : UInt8) (data : Bytes) :
    ∀ t ∈ cut v key dts fuel false cc data, t.start = false := by
  induction fuel generalizing cc data with
  | zero => simp [cut]
  | succ fuel ih =>
    intro t ht
    simp only [cut] at ht
    split at ht
    · simp at ht
    split at ht
    · simp only [List.mem_singleton] at ht; subst ht; rfl
    · split at ht
      · rcases List.mem_cons.mp ht with rfl | ht
        · rfl
        · exact ih _ _ t ht
      · split at ht
        · simp only [List.mem_singleton] at ht; subst ht; rfl
        · rcases List.mem_cons.mp ht with rfl | ht
          · rfl
          · exact ih _ _ t ht

/-- An adaptation field that only stuffs. -/
theorem parse_stuffing (n : Nat) : Spec.Ts.parseAdaptation (stuffing n) = some ⟨false, none⟩ := by
  unfold stuffing
  split
  · rfl
  · simp [Spec.Ts.parseAdaptation]

theorem cut_adaptation_false (v key : Bool) (dts : Int) (fuel : Nat) (cc : UInt8) (data : Bytes) :
    ∀ t ∈ cut v key dts fuel false cc data,
      ∀ a, t.adaptation = some a → Spec.Ts.parseAdaptation a = some ⟨false, none⟩ := by
  induction fuel generalizing cc data with
  | zero => simp [cut]
  | succ fuel ih =>
    intro t ht a ha
    simp only [cut] at ht
    split at ht
    · simp at ht
    split at ht
    · rename_i hk; simp at hk
    · split at ht
      · rename_i hk; simp at hk
      · split at ht
        · simp only [List.mem_singleton] at ht; subst ht
          simp only [Option.some.injEq] at ha
          rw [← ha]; exact parse_stuffing _
        · rcases List.mem_cons.mp ht with rfl | ht
          · simp at ha
          · exact ih _ _ t ht a ha

theorem toByte_toNat (x : Int) : (toByte x).toNat = (x % 256).toNat := by
  unfold toByte
  rw [UInt8.toNat_ofNat']
  have h1 := Int.emod_nonneg x (show (256 : Int) ≠ 0 by decide)
  have h2 := Int.emod_lt_of_pos x (show (0 : Int) < 256 by decide)
  omega

theorem parse_pcrField (dts : Int) :
    Spec.Ts.parseAdaptation (pcrField dts) = some ⟨true, some ((dts % 2 ^ 33).toNat, 0)⟩ := by
  have h4 : (toByte (dts % 2 * 128) ||| 0x7e).toNat = (dts % 2).toNat * 128 + 126 := by
    rcases Int.emod_two_eq dts with h | h <;> rw [h] <;> decide
  unfold pcrField Spec.Ts.parseAdaptation
  simp only [show (0x50 : UInt8).toNat = 80 from rfl]
  rw [if_neg (by decide), if_pos (by decide), if_pos (by rfl)]
  simp only [toByte_toNat, h4, show (0 : UInt8).toNat = 0 from rfl]
  congr 3
  refine Prod.ext ?_ ?_
  · simp only
    have e25 : dts / 2 ^ 25 = dts / 33554432 := rfl
    have e17 : dts / 2 ^ 17 = dts / 131072 := rfl
    have e9 : dts / 2 ^ 9 = dts / 512 := rfl
    have e1 : dts / 2 ^ 1 = dts / 2 := rfl
    have e33 : dts % 2 ^ 33 = dts % 8589934592 := rfl
    rw [e25, e17, e9, e1, e33]
    omega
  · simp only
    omega

/-- The first packet. -/
theorem cut_first (v key : Bool) (dts : Int) (fuel : Nat) (cc : UInt8) (data : Bytes) (hd : data ≠ []) :
    ∃ t ts, cut v key dts (fuel + 1) true cc data = t :: ts ∧ t.start = true ∧ (∀ x ∈ ts, x.start = false)
      ∧ (∀ x ∈ ts, ∀ a, x.adaptation = some a → Spec.Ts.parseAdaptation a = some ⟨false, none⟩)
      ∧ (if key then ∃ a, t.adaptation = some a ∧ Spec.Ts.parseAdaptation a = some ⟨true, some ((dts % 2 ^ 33).toNat, 0)⟩
         else ∀ a, t.adaptation = some a → Spec.Ts.parseAdaptation a = some ⟨false, none⟩) := by
  simp only [cut]
  rw [if_neg hd]
  cases key with
  | true =>
    split
    · exact ⟨_, _, rfl, rfl, by simp, by simp, _, rfl, parse_pcrField dts⟩
    rw [if_pos (show (true && true) = true from rfl)]
    refine ⟨_, _, rfl, rfl, fun x hx => cut_start_false _ _ _ _ _ _ x hx, fun x hx => cut_adaptation_false _ _ _ _ _ _ x hx, ?_⟩
    exact ⟨_, rfl, parse_pcrField dts⟩
  | false =>
    rw [if_neg (by simp), if_neg (by simp)]
    split
    · refine ⟨_, _, rfl, rfl, by simp, by simp, ?_⟩
      intro a ha
      simp only [Option.some.injEq] at ha
      rw [← ha]; exact parse_stuffing _
    · refine ⟨_, _, rfl, rfl, fun x hx => cut_start_false _ _ _ _ _ _ x hx, fun x hx => cut_adaptation_false _ _ _ _ _ _ x hx, ?_⟩
      intro a ha
      simp at ha

/-! ## Time stamps -/

/-- What `encodeTs` encodes (pes.go:68-70), before it is reduced mod 2^33. -/
def adj (t : Int) : Int := if t > 0x1ffffffff then t - 0x1ffffffff else t

theorem toU16_toNat (x : Int) : (toU16 x).toNat = (x % 65536).toNat := by
  unfold toU16
  rw [UInt16.toNat_ofNat']
  have h1 := Int.emod_nonneg x (show (65536 : Int) ≠ 0 by decide)
  have h2 := Int.emod_lt_of_pos x (show (0 : Int) < 65536 by decide)
  omega

theorem shl1_or1 (x : UInt16) (h : x.toNat < 32768) : ((x <<< 1) ||| 1).toNat = 2 * x.toNat + 1 := by
  rw [UInt16.toNat_or, UInt16.toNat_shiftLeft]
  have e : x.toNat <<< ((1 : UInt16).toNat % 16) % 2 ^ 16 = 2 * x.toNat := by
    simp [Nat.shiftLeft_eq]; omega
  rw [e, show (1 : UInt16).toNat = 1 from rfl]
  have := Nat.two_pow_add_eq_or_of_lt (i := 1) (b := 1) (by decide) x.toNat
  simp at this
  omega

theorem stampTab : ∀ x : Fin 8, ∀ f : Bool,
    let a := ((((if f then 0xc0 else 0x80 : UInt8) &&& 0xc0) >>> 2).toUInt16 ||| ((UInt16.ofNat x.val) <<< 1) ||| 1).toUInt8
    a.toNat % 2 = 1 ∧ a.toNat / 2 % 8 = x.val ∧ a.toNat / 16 = if f then 3 else 2 := by decide

theorem parse_encodeTs (f : Bool) (t : Int) :
    Spec.Ts.parseStamp (encodeTs (if f then 0xc0 else 0x80) t) = some (adj t % 2 ^ 33).toNat
    ∧ Spec.Ts.stampPrefix (encodeTs (if f then 0xc0 else 0x80) t) = some (if f then 3 else 2) := by
  unfold encodeTs
  simp only
  rw [show (if t > 0x1ffffffff then t - 0x1ffffffff else t) = adj t from rfl]
  generalize adj t = s
  have and7 : (toU16 (s / 2 ^ 30) &&& 0x07).toNat = (s / 1073741824 % 8).toNat := by
    rw [UInt16.toNat_and, toU16_toNat]
    have := Nat.and_two_pow_sub_one_eq_mod (s / 2 ^ 30 % 65536).toNat 3
    refine Eq.trans this ?_
    show (s / 1073741824 % 65536).toNat % 8 = _
    omega
  have hx : toU16 (s / 2 ^ 30) &&& 0x07 = UInt16.ofNat (s / 1073741824 % 8).toNat := by
    rw [← and7]; simp
  obtain ⟨t1, t2, t3⟩ := stampTab ⟨(s / 1073741824 % 8).toNat, by omega⟩ f
  simp only [← hx] at t1 t2 t3
  generalize ((((if f then 0xc0 else 0x80 : UInt8) &&& 0xc0) >>> 2).toUInt16 ||| ((toU16 (s / 2 ^ 30) &&& 0x07) <<< 1) ||| 1).toUInt8 = a at *
  have and15 : (toU16 (s / 2 ^ 15) &&& 0x7fff).toNat = (s / 32768 % 32768).toNat := by
    rw [UInt16.toNat_and, toU16_toNat]
    have := Nat.and_two_pow_sub_one_eq_mod (s / 2 ^ 15 % 65536).toNat 15
    refine Eq.trans this ?_
    show (s / 32768 % 65536).toNat % 32768 = _
    omega
  have h2 := shl1_or1 (toU16 (s / 2 ^ 15) &&& 0x7fff) (by rw [and15]; omega)
  rw [and15] at h2
  generalize ((toU16 (s / 2 ^ 15) &&& 0x7fff) <<< 1) ||| 1 = v2 at *
  have l3 : (toU16 (s % 2 ^ 15)).toNat = (s % 32768).toNat := by
    rw [toU16_toNat]
    show (s % 32768 % 65536).toNat = _
    omega
  have h3 := shl1_or1 (toU16 (s % 2 ^ 15)) (by rw [l3]; omega)
  rw [l3] at h3
  generalize (toU16 (s % 2 ^ 15) <<< 1) ||| 1 = v3 at *
  have hi (v : UInt16) : (v >>> 8).toUInt8.toNat = v.toNat / 256 := by
    have := v.toNat_lt
    simp [Nat.shiftRight_eq_div_pow]; omega
  have lo (v : UInt16) : v.toUInt8.toNat = v.toNat % 256 := by simp
  constructor
  · simp only [Spec.Ts.parseStamp, hi, lo, h2, h3, t2]
    rw [if_pos ⟨t1, by omega, by omega⟩]
    congr 1
    show _ = (s % 8589934592).toNat
    omega
  · simp [Spec.Ts.stampPrefix, t3]

/-- The PES packet as a decoder reads it. -/
theorem parse_pesBytes (v : Bool) (media : Bytes) (pts dts : Int) :
    Spec.Ts.parsePes (pesBytes v media pts dts) = some
      { streamId := if v then 0xe0 else 0xc0
        length := if (pesBytes v media pts dts).length - 6 ≤ 65535 then (pesBytes v media pts dts).length - 6 else 0
        pts := (adj pts % 2 ^ 33).toNat
        dts := if v = true ∧ pts ≠ dts then some (adj dts % 2 ^ 33).toNat else none
        data := media } := by
  have hlen : (pesBytes v media pts dts).length = (if v = true ∧ pts ≠ dts then 19 else 14) + media.length := by
    unfold pesBytes; rw [List.length_append, pesHead_length]
  rw [hlen]
  have sz (n : Nat) : (UInt8.ofNat (pesSize n / 256)).toNat * 256 + (UInt8.ofNat (pesSize n)).toNat = if n ≤ 65535 then n else 0 := by
    rw [UInt8.toNat_ofNat', UInt8.toNat_ofNat']
    unfold pesSize
    by_cases h : n > 0xffff
    · rw [if_pos h, if_neg (by omega)]
    · rw [if_neg h, if_pos (by omega)]; omega
  obtain ⟨p1, -⟩ := parse_encodeTs false pts
  obtain ⟨p2, -⟩ := parse_encodeTs true dts
  simp only [if_true] at p1 p2
  unfold pesBytes pesHead
  by_cases hc : v = true ∧ pts ≠ dts
  · rw [if_pos hc, if_pos hc, if_pos hc]
    obtain ⟨a, b, c, d, e, h1⟩ := encodeTs_lit 0x80 pts
    obtain ⟨a', b', c', d', e', h2⟩ := encodeTs_lit 0xc0 dts
    have p1' : Spec.Ts.parseStamp [a, b, c, d, e] = some (adj pts % 2 ^ 33).toNat := by rw [← h1]; exact p1
    have p2' : Spec.Ts.parseStamp [a', b', c', d', e'] = some (adj dts % 2 ^ 33).toNat := by rw [← h2]; exact p2
    rw [h1, h2]
    unfold Spec.Ts.parsePes
    simp only [List.cons_append, List.nil_append]
    rw [if_pos (by simp)]
    simp only [show (10 : UInt8).toNat = 10 from rfl, List.take_succ_cons, List.take_zero, List.drop_succ_cons, List.drop_zero,
      Spec.Ts.parseStamps, show (0xc0 : UInt8).toNat = 0xc0 from rfl, p1', p2', sz]
    simp [hc.1]
    split <;> split <;> omega
  · rw [if_neg hc, if_neg hc, if_neg hc]
    obtain ⟨a, b, c, d, e, h1⟩ := encodeTs_lit 0x80 pts
    have p1' : Spec.Ts.parseStamp [a, b, c, d, e] = some (adj pts % 2 ^ 33).toNat := by rw [← h1]; exact p1
    rw [h1]
    unfold Spec.Ts.parsePes
    simp only [List.cons_append, List.nil_append]
    rw [if_pos (by simp)]
    simp only [show (5 : UInt8).toNat = 5 from rfl, List.take_succ_cons, List.take_zero, List.drop_succ_cons, List.drop_zero,
      Spec.Ts.parseStamps, show (0x80 : UInt8).toNat = 0x80 from rfl, p1', sz]
    cases v <;> simp <;> split <;> split <;> omega

/-! ## Short key frames -/

theorem stuffLoop_panic (off last : Nat) (fuel i : Nat) (buf : Bytes) (h : buf.length ≤ off + last) (hi : i ≤ last)
    (hf : last < fuel + i) : stuffLoop off last fuel i buf = .panic := by
  induction fuel generalizing i buf with
  | zero => omega
  | succ fuel ih =>
    unfold stuffLoop
    rw [if_pos hi]
    unfold goSet
    rw [if_neg (by omega), Int.toNat_natCast]
    by_cases hb : off + i < buf.length
    · rw [if_pos hb]
      simp only [Res.bind_ok]
      exact ih _ _ (by simp; omega) (by omega) (by omega)
    · rw [if_neg hb]; rfl

theorem writeStuff_panic (buf : Bytes) (off : Nat) (r : UInt8) (hr : 1 < (r - 1).toNat) (h : buf.length ≤ off + (r - 1).toNat) :
    writeStuff buf off r = .panic := by
  have h0 : r - 1 > 0 := UInt8.lt_iff_toNat_lt.mpr (by show 0 < _; omega)
  unfold writeStuff
  by_cases ho : off > buf.length
  · rw [if_pos ho]
  · rw [if_neg ho]
    simp only [goSet]
    rw [if_neg (by omega), Int.toNat_natCast]
    by_cases h1 : off < buf.length
    · rw [if_pos h1]
      simp only [Res.bind_ok]
      rw [if_pos h0, if_neg (by omega), Int.toNat_natCast]
      by_cases h2 : off + 1 < (buf.set off (r - 1)).length
      · rw [if_pos h2]
        simp only [Res.bind_ok]
        exact stuffLoop_panic _ _ _ _ _ (by simp; omega) (by omega) (by have := (r - 1).toNat_lt; omega)
      · rw [if_neg h2]; rfl
    · rw [if_neg h1]; rfl

theorem mux_panic (p : Packet) (dts pts : Int) (hk : Kind p true true)
    (h1 : 176 ≤ (pesBytes true p.media pts dts).length) (h2 : (pesBytes true p.media pts dts).length < 184)
    (e : Env) (hb : e.m.tsPacket.length = 188) : (mux p dts pts e).1 = .panic ∧ (mux p dts pts e).2.w = e.w := by
  obtain ⟨h, -, -, h4⟩ := mux_eq p true true dts pts hk
  rw [h4]
  generalize (pesBytes true p.media pts dts).length = n at *
  generalize (pesHead true p.media.length pts dts).length = hl at *
  obtain ⟨q0, q1, q2, q3, rest, hq⟩ : ∃ a b c d r, e.m.tsPacket = a :: b :: c :: d :: r := by
    rcases hq : e.m.tsPacket with _ | ⟨a, _ | ⟨b, _ | ⟨c, _ | ⟨d, r⟩⟩⟩⟩ <;>
      first | (rw [hq] at hb; simp at hb; done) | exact ⟨_, _, _, _, _, rfl⟩
  have hrest : rest.length = 184 := by rw [hq] at hb; simpa using hb
  unfold muxLoop
  rw [if_pos (show n > 0 by omega), GoM.bind_apply]
  unfold muxBody
  have s1 : updPacket (fun b => goCopyAt b 0 (([0x47, (pidOf true >>> 8).toUInt8, (pidOf true).toUInt8, 0x10] : Bytes).take 4)) e
      = (.ok (), e.pk ([(0x47 : UInt8), (pidOf true >>> 8).toUInt8, (pidOf true).toUInt8, 0x10] ++ rest)) := by
    apply updPacket_ok
    rw [hq]
    simp [goCopyAt]
  have s2 : putStart true (e.pk ([(0x47 : UInt8), (pidOf true >>> 8).toUInt8, (pidOf true).toUInt8, 0x10] ++ rest))
      = (.ok (), e.pk ([(0x47 : UInt8), (pidOf true >>> 8).toUInt8 ||| 0x40, (pidOf true).toUInt8, 0x10] ++ rest)) := by
    unfold putStart
    simp only [if_true]
    apply updPacket_ok
    exact orAt_ok [0x47] _ _ _ 1 rfl
  generalize (pidOf true >>> 8).toUInt8 ||| 0x40 = b1 at s2
  have s3 := bumpCc_ok true (e.pk ([(0x47 : UInt8), b1, (pidOf true).toUInt8, 0x10] ++ rest))
  rw [bumped_pk] at s3
  generalize nextCc (ccOf true (e.pk ([(0x47 : UInt8), b1, (pidOf true).toUInt8, 0x10] ++ rest)).m) = cc at s3
  generalize hec : ({ e with m := bumped true e.m } : Env) = ec at s3
  have hecw : ec.w = e.w := by rw [← hec]
  have s4 : updPacket (fun b => orAt b 3 cc) (ec.pk ([(0x47 : UInt8), b1, (pidOf true).toUInt8, 0x10] ++ rest))
      = (.ok (), ec.pk ([(0x47 : UInt8), b1, (pidOf true).toUInt8, 0x10 ||| cc] ++ rest)) :=
    updPacket_ok (orAt_ok [0x47, b1, (pidOf true).toUInt8] _ _ _ 3 rfl)
  obtain ⟨r, s5, hr⟩ := putPcr_ok dts b1 (pidOf true).toUInt8 (0x10 ||| cc)
    (ec.pk ([(0x47 : UInt8), b1, (pidOf true).toUInt8, 0x10 ||| cc] ++ rest)) rest hrest rfl
  have hpp : ∀ b c : Bytes, (ec.pk b).pk c = ec.pk c := fun _ _ => rfl
  rw [hpp] at s5
  have s6 : updPacket (fun b => orAt b 3 0x20) (ec.pk ([0x47, b1, (pidOf true).toUInt8, (0x10 ||| cc) ||| 0x20, 7] ++ (pcrField dts ++ r)))
      = (.ok (), ec.pk ([0x47, b1, (pidOf true).toUInt8, ((0x10 ||| cc) ||| 0x20) ||| 0x20, 7] ++ (pcrField dts ++ r))) :=
    updPacket_ok (orAt_ok [0x47, b1, (pidOf true).toUInt8] _ _ _ 3 rfl)
  have hrm : (188 - 12 - UInt8.ofNat n - 1 : UInt8).toNat = 431 - n := by
    have : (188 - 12 - UInt8.ofNat n : UInt8).toNat = (432 - n) % 256 := by
      rw [UInt8.toNat_sub, UInt8.toNat_ofNat', show (188 - 12 : UInt8).toNat = 176 from rfl]; omega
    rw [UInt8.toNat_sub, this, show (1 : UInt8).toNat = 1 from rfl]; omega
  have s7 : ∀ x : Env, x = ec.pk ([0x47, b1, (pidOf true).toUInt8, ((0x10 ||| cc) ||| 0x20) ||| 0x20, 7] ++ (pcrField dts ++ r)) →
      updPacket (fun b => writeStuff b (12 : UInt8).toNat (188 - 12 - UInt8.ofNat n)) x = (.panic, x) := by
    intro x hx
    have hl : x.m.tsPacket.length = 188 := by rw [hx]; simp [Env.pk, pcrField, hr]
    have := writeStuff_panic x.m.tsPacket (12 : UInt8).toNat (188 - 12 - UInt8.ofNat n) (by omega) (by rw [hl, hrm]; show 188 ≤ 12 + _; omega)
    unfold updPacket
    simp only [GoM.bind_apply, GoM.get_apply, GoM.lift_apply]
    rw [this]
  have s8 : putStuff n 12 (ec.pk ([0x47, b1, (pidOf true).toUInt8, (0x10 ||| cc) ||| 0x20, 7] ++ (pcrField dts ++ r)))
      = (.panic, ec.pk ([0x47, b1, (pidOf true).toUInt8, ((0x10 ||| cc) ||| 0x20) ||| 0x20, 7] ++ (pcrField dts ++ r))) := by
    unfold putStuff
    simp only
    rw [if_pos (by unfold tsDefaultDataLen; omega)]
    simp only [GoM.bind_apply, s6, s7 _ rfl]
  rw [hk.type']
  simp only [GoM.bind_apply, s1, s2, s3, s4, Bool.and_self, s5, s8]
  exact ⟨trivial, hecw⟩

end Verif.Ts
