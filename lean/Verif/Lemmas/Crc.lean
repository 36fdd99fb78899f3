import Verif.Model.Crc
import Verif.Spec.Crc
/-! # Lemmas about the CRC -/
namespace Verif.Spec.Crc

theorem shiftIn_xor (r s : BitVec 32) (a b : Bool) : shiftIn (r ^^^ s) (a ^^ b) = shiftIn r a ^^^ shiftIn s b := by
  unfold shiftIn
  have hs : (r ^^^ s) <<< 1 = (r <<< 1) ^^^ (s <<< 1) := by
    ext i hi; simp; by_cases h : i = 0 <;> simp [h]
  rw [BitVec.msb_xor, hs]
  generalize r.msb = x
  generalize s.msb = y
  generalize r <<< 1 = r'
  generalize s <<< 1 = s'
  have l1 : (r' ^^^ s') ^^^ 79764919#32 = r' ^^^ (s' ^^^ 79764919#32) := BitVec.xor_assoc ..
  have l2 : (r' ^^^ s') ^^^ 79764919#32 = (r' ^^^ 79764919#32) ^^^ s' := by
    rw [BitVec.xor_assoc, BitVec.xor_assoc, BitVec.xor_comm s']
  have l3 : r' ^^^ s' = (r' ^^^ 79764919#32) ^^^ (s' ^^^ 79764919#32) := by
    rw [BitVec.xor_comm s', BitVec.xor_assoc, ← BitVec.xor_assoc 79764919#32, BitVec.xor_self, BitVec.zero_xor]
  cases x <;> cases y <;> cases a <;> cases b <;> first | rfl | exact l1 | exact l2 | exact l3

/-- Eight steps. -/
def byteIn (reg : BitVec 32) (b : UInt8) : BitVec 32 := (bitsOf b).foldl shiftIn reg

theorem bitsOf_xor (a b : UInt8) : bitsOf (a ^^^ b) = List.zipWith (· ^^ ·) (bitsOf a) (bitsOf b) := by
  simp only [bitsOf, UInt8.toNat_xor, Nat.testBit_xor, List.zipWith_cons_cons, List.zipWith_nil_left]

theorem byteIn_xor (r s : BitVec 32) (a b : UInt8) : byteIn (r ^^^ s) (a ^^^ b) = byteIn r a ^^^ byteIn s b := by
  unfold byteIn
  rw [bitsOf_xor]
  simp only [bitsOf, List.zipWith_cons_cons, List.zipWith_nil_left, List.foldl_cons, List.foldl_nil, shiftIn_xor]

theorem shiftIn_small (r : BitVec 32) (h : r.toNat < 2 ^ 31) : (shiftIn r false).toNat = 2 * r.toNat := by
  have : r.msb = false := by rw [BitVec.msb_eq_false_iff_two_mul_lt]; omega
  unfold shiftIn
  rw [if_pos this]
  simp [Nat.shiftLeft_eq]
  omega

theorem byteIn_small (r : BitVec 32) (h : r.toNat < 2 ^ 24) : byteIn r 0 = r <<< 8 := by
  apply BitVec.eq_of_toNat_eq
  have e : bitsOf 0 = [false, false, false, false, false, false, false, false] := by decide
  unfold byteIn
  rw [e]
  simp only [List.foldl_cons, List.foldl_nil]
  have s1 := shiftIn_small r (by omega)
  have s2 := shiftIn_small (shiftIn r false) (by omega)
  have s3 := shiftIn_small (shiftIn (shiftIn r false) false) (by omega)
  have s4 := shiftIn_small (shiftIn (shiftIn (shiftIn r false) false) false) (by omega)
  have s5 := shiftIn_small (shiftIn (shiftIn (shiftIn (shiftIn r false) false) false) false) (by omega)
  have s6 := shiftIn_small (shiftIn (shiftIn (shiftIn (shiftIn (shiftIn r false) false) false) false) false) (by omega)
  have s7 := shiftIn_small (shiftIn (shiftIn (shiftIn (shiftIn (shiftIn (shiftIn r false) false) false) false) false) false) (by omega)
  have s8 := shiftIn_small (shiftIn (shiftIn (shiftIn (shiftIn (shiftIn (shiftIn (shiftIn r false) false) false) false) false) false) false) (by omega)
  rw [s8, s7, s6, s5, s4, s3, s2, s1]
  simp [Nat.shiftLeft_eq]
  omega

end Verif.Spec.Crc

namespace Verif.Ts
open Verif.Spec.Crc

/-- Every table entry is the effect of eight steps on its index in the top byte. -/
theorem table_ok : ∀ j : Fin 256, crcTable[j.val]? = some ⟨byteIn (BitVec.ofNat 32 (j.val * 2 ^ 24)) 0⟩ := by decide +kernel

/-- A byte equal to the top byte of an otherwise empty register empties it. -/
theorem byteIn_cancel : ∀ j : Fin 256, byteIn (BitVec.ofNat 32 (j.val * 2 ^ 24)) (UInt8.ofNat j.val) = 0#32 := by decide +kernel

theorem crcStep_eq (c : UInt32) (b : UInt8) : crcStep c b = .ok ⟨byteIn c.toBitVec b⟩ := by
  obtain ⟨r⟩ := c
  have hr := r.isLt
  let h : UInt8 := UInt8.ofNat (r.toNat / 2 ^ 24)
  have hh : h.toNat = r.toNat / 2 ^ 24 := by
    show (UInt8.ofNat (r.toNat / 2 ^ 24)).toNat = _
    rw [UInt8.toNat_ofNat']; omega
  have hsh : ((⟨r⟩ : UInt32) >>> 24).toUInt8 = h := by
    apply UInt8.toNat_inj.mp
    rw [hh, UInt32.toNat_toUInt8, UInt32.toNat_shiftRight]
    simp [Nat.shiftRight_eq_div_pow]
    omega
  let lo : BitVec 32 := BitVec.ofNat 32 (r.toNat % 2 ^ 24)
  have hlo : lo.toNat = r.toNat % 2 ^ 24 := by
    show (BitVec.ofNat 32 _).toNat = _
    rw [BitVec.toNat_ofNat]; omega
  have hsplit : r = BitVec.ofNat 32 (h.toNat * 2 ^ 24) ^^^ lo := by
    apply BitVec.eq_of_toNat_eq
    rw [BitVec.toNat_xor, BitVec.toNat_ofNat, hlo, hh, Nat.mod_eq_of_lt (by omega)]
    have hz : (r.toNat / 2 ^ 24 * 2 ^ 24) ^^^ (r.toNat % 2 ^ 24) = (r.toNat / 2 ^ 24 * 2 ^ 24) + (r.toNat % 2 ^ 24) := by
      apply Nat.eq_of_testBit_eq
      intro i
      rw [Nat.testBit_xor, Nat.mul_comm, Nat.testBit_two_pow_mul, Nat.testBit_two_pow_mul_add _ (Nat.mod_lt _ (by decide)),
        Nat.testBit_mod_two_pow]
      by_cases hi : i < 24
      · simp [hi, Nat.not_le.mpr hi]
      · simp [hi, Nat.le_of_not_lt hi]
    rw [hz]
    omega
  have hj : (h ^^^ b) &&& 0xff = h ^^^ b := by
    apply UInt8.toNat_inj.mp
    rw [UInt8.toNat_and]
    have := (h ^^^ b).toNat_lt
    have e : (h ^^^ b).toNat &&& 255 = (h ^^^ b).toNat % 2 ^ 8 := Nat.and_two_pow_sub_one_eq_mod _ 8
    exact e.trans (Nat.mod_eq_of_lt (by omega))
  have ht := table_ok ⟨(h ^^^ b).toNat, (h ^^^ b).toNat_lt⟩
  simp only at ht
  unfold crcStep
  simp only [hsh, hj]
  have hg : goIndex crcTable ((h ^^^ b).toNat : Int) = .ok ⟨byteIn (BitVec.ofNat 32 ((h ^^^ b).toNat * 2 ^ 24)) 0⟩ := by
    unfold goIndex
    rw [if_neg (by omega), Int.toNat_natCast, ht]
  rw [hg]
  simp only
  congr 1
  have hx : BitVec.ofNat 32 ((h ^^^ b).toNat * 2 ^ 24) = BitVec.ofNat 32 (h.toNat * 2 ^ 24) ^^^ BitVec.ofNat 32 (b.toNat * 2 ^ 24) := by
    apply BitVec.eq_of_toNat_eq
    rw [BitVec.toNat_xor, BitVec.toNat_ofNat, BitVec.toNat_ofNat, BitVec.toNat_ofNat, UInt8.toNat_xor]
    have h1 := h.toNat_lt; have h2 := b.toNat_lt
    have h3 : h.toNat ^^^ b.toNat < 2 ^ 8 := Nat.xor_lt_two_pow h1 h2
    rw [Nat.mod_eq_of_lt (by omega), Nat.mod_eq_of_lt (by omega), Nat.mod_eq_of_lt (by omega)]
    apply Nat.eq_of_testBit_eq
    intro i
    simp only [Nat.testBit_xor, Nat.mul_comm _ (2 ^ 24), Nat.testBit_two_pow_mul]
    by_cases hi : 24 ≤ i <;> simp [hi]
  have hc : byteIn (BitVec.ofNat 32 (b.toNat * 2 ^ 24)) b = 0#32 := by
    have := byteIn_cancel ⟨b.toNat, b.toNat_lt⟩
    simpa using this
  have e1 : byteIn r b = byteIn (BitVec.ofNat 32 (h.toNat * 2 ^ 24)) b ^^^ (lo <<< 8) := by
    rw [← byteIn_small lo (by rw [hlo]; exact Nat.mod_lt _ (by decide)), ← byteIn_xor, ← hsplit]
    simp
  have e2 : byteIn (BitVec.ofNat 32 ((h ^^^ b).toNat * 2 ^ 24)) 0 = byteIn (BitVec.ofNat 32 (h.toNat * 2 ^ 24)) b := by
    have : (0 : UInt8) = b ^^^ b := by simp
    rw [hx, this, byteIn_xor, hc, BitVec.xor_zero]
  have e3 : r <<< 8 = lo <<< 8 := by
    apply BitVec.eq_of_toNat_eq
    simp [hlo, Nat.shiftLeft_eq]
    omega
  apply UInt32.toBitVec_inj.mp
  show (r <<< 8) ^^^ _ = byteIn r b
  rw [e2, e1, e3, BitVec.xor_comm]

theorem crcLoop_eq (s : Bytes) (c : UInt32) : crcLoop s c = .ok ⟨(s.flatMap bitsOf).foldl shiftIn c.toBitVec⟩ := by
  induction s generalizing c with
  | nil => rfl
  | cons b s ih =>
    simp only [crcLoop, crcStep_eq, Res.bind_ok, ih, List.flatMap_cons, List.foldl_append]
    rfl

/-- Feeding the register its own top byte shifts it. -/
theorem byteIn_top (c : UInt32) : byteIn c.toBitVec (c >>> 24).toUInt8 = c.toBitVec <<< 8 := by
  have h := crcStep_eq c (c >>> 24).toUInt8
  have g : goIndex crcTable (0 : Int) = .ok 0 := by decide +kernel
  unfold crcStep at h
  simp only [UInt8.xor_self, show (0 : UInt8) &&& 0xff = 0 from by decide] at h
  rw [show (((0 : UInt8).toNat : Nat) : Int) = 0 from rfl, g] at h
  simp only [Res.ok.injEq] at h
  have h2 := congrArg UInt32.toBitVec h
  simp only [UInt32.xor_zero] at h2
  exact h2.symm

theorem shiftIn_zero {d : BitVec 32} (h : shiftIn d false = 0#32) : d = 0#32 := by
  have hd := d.isLt
  unfold shiftIn at h
  split at h
  · rename_i hm
    rw [BitVec.msb_eq_false_iff_two_mul_lt] at hm
    have := congrArg BitVec.toNat h
    apply BitVec.eq_of_toNat_eq
    simp [Nat.shiftLeft_eq] at this ⊢
    omega
  · have h0 : d <<< 1 = 79764919#32 := by
      have := congrArg (· ^^^ 79764919#32) h
      simpa [BitVec.xor_assoc] using this
    have := congrArg BitVec.toNat h0
    simp [Nat.shiftLeft_eq] at this
    omega

theorem shiftIn_inj {r s : BitVec 32} {a : Bool} (h : shiftIn r a = shiftIn s a) : r = s := by
  have e := shiftIn_xor r s a a
  rw [h, BitVec.xor_self, Bool.xor_self] at e
  have := shiftIn_zero e
  have h2 := congrArg (· ^^^ s) this
  simpa [BitVec.xor_assoc] using h2

theorem fold_inj (bs : List Bool) {r s : BitVec 32} (h : bs.foldl shiftIn r = bs.foldl shiftIn s) : r = s := by
  induction bs generalizing r s with
  | nil => exact h
  | cons b bs ih => exact shiftIn_inj (ih h)

/-- The register after the bytes `s`. -/
def bytesIn (r : BitVec 32) (s : Bytes) : BitVec 32 := (s.flatMap bitsOf).foldl shiftIn r

theorem bytesIn_nil (r : BitVec 32) : bytesIn r [] = r := rfl
theorem bytesIn_cons (r : BitVec 32) (b : UInt8) (s : Bytes) : bytesIn r (b :: s) = bytesIn (byteIn r b) s := by
  simp [bytesIn, byteIn, List.foldl_append]
theorem bytesIn_append (r : BitVec 32) (s t : Bytes) : bytesIn r (s ++ t) = bytesIn (bytesIn r s) t := by
  simp [bytesIn, List.foldl_append]
theorem bytesIn_inj (s : Bytes) {r r' : BitVec 32} (h : bytesIn r s = bytesIn r' s) : r = r' := fold_inj _ h

theorem bytesIn_xor (s t : Bytes) (h : s.length = t.length) (r u : BitVec 32) :
    bytesIn (r ^^^ u) (List.zipWith (· ^^^ ·) s t) = bytesIn r s ^^^ bytesIn u t := by
  induction s generalizing t r u with
  | nil => cases t with
    | nil => rfl
    | cons _ _ => simp at h
  | cons a s ih => cases t with
    | nil => simp at h
    | cons b t =>
      simp only [List.zipWith_cons_cons, bytesIn_cons, byteIn_xor]
      exact ih t (by simpa using h) _ _

/-- Feeding the register the four bytes it holds empties it. -/
theorem bytesIn_self (c : UInt32) :
    bytesIn c.toBitVec [(c >>> 24).toUInt8, (c >>> 16).toUInt8, (c >>> 8).toUInt8, c.toUInt8] = 0#32 := by
  have s1 : (c >>> 16).toUInt8 = ((c <<< 8) >>> 24).toUInt8 := by
    apply UInt8.toNat_inj.mp
    simp [Nat.shiftRight_eq_div_pow, Nat.shiftLeft_eq]; omega
  have s2 : (c >>> 8).toUInt8 = (((c <<< 8) <<< 8) >>> 24).toUInt8 := by
    apply UInt8.toNat_inj.mp
    simp [Nat.shiftRight_eq_div_pow, Nat.shiftLeft_eq]; omega
  have s3 : c.toUInt8 = ((((c <<< 8) <<< 8) <<< 8) >>> 24).toUInt8 := by
    apply UInt8.toNat_inj.mp
    simp [Nat.shiftRight_eq_div_pow, Nat.shiftLeft_eq]; omega
  have k (c : UInt32) : c.toBitVec <<< 8 = (c <<< 8).toBitVec := rfl
  simp only [bytesIn_cons, bytesIn_nil]
  rw [byteIn_top, k, s1, byteIn_top, k, s2, byteIn_top, k, s3, byteIn_top]
  apply BitVec.eq_of_toNat_eq
  simp [Nat.shiftLeft_eq]

end Verif.Ts
