import Verif.Model.Float64
import Verif.Spec.Float64
/-! # Exactness of the float64 operations on integers up to 2^53 -/
namespace Verif.F64

theorem rne_mul (q d : Nat) (hd : 0 < d) : rne (q * d) d = q := by
  unfold rne
  simp only [Nat.mul_mod_left, Nat.mul_div_cancel _ hd]
  rw [if_neg (by omega)]

theorem log2_bounds (n : Nat) (h : n ≠ 0) : 2 ^ n.log2 ≤ n ∧ n < 2 ^ (n.log2 + 1) :=
  ⟨Nat.log2_self_le h, Nat.lt_log2_self⟩

/-- `⌊log2 (kd/d)⌋ = ⌊log2 k⌋`. -/
theorem floorLog2_int (k d : Nat) (hk : 0 < k) (hd : 0 < d) : floorLog2 (k * d) d = (k.log2 : Int) := by
  obtain ⟨k1, k2⟩ := log2_bounds k (by omega)
  obtain ⟨d1, d2⟩ := log2_bounds d (by omega)
  have hkd : 0 < k * d := Nat.mul_pos hk hd
  obtain ⟨a1, a2⟩ := log2_bounds (k * d) (by omega)
  have h1 : k.log2 + d.log2 ≤ (k * d).log2 := by
    have : 2 ^ (k.log2 + d.log2) ≤ k * d := by rw [Nat.pow_add]; exact Nat.mul_le_mul k1 d1
    exact (Nat.le_log2 (by omega)).mpr this
  have h2 : (k * d).log2 < (k.log2 + d.log2) + 2 := by
    have : k * d < 2 ^ (k.log2 + d.log2 + 2) := by
      rw [show k.log2 + d.log2 + 2 = (k.log2 + 1) + (d.log2 + 1) by omega, Nat.pow_add]
      exact Nat.mul_lt_mul'' k2 d2
    exact (Nat.log2_lt (by omega)).mpr this
  obtain ⟨a, ha⟩ : ∃ a, (k * d).log2 = d.log2 + a := ⟨(k * d).log2 - d.log2, by omega⟩
  unfold floorLog2
  have ha' : (((k * d).log2 : Nat) : Int) - (d.log2 : Int) = (a : Int) := by omega
  simp only [ha']
  have hge : (d * 2 ^ a ≤ k * d) ↔ a ≤ k.log2 := by
    rw [Nat.mul_comm k d]
    constructor
    · intro h
      exact (Nat.le_log2 (by omega)).mpr (Nat.le_of_mul_le_mul_left h hd)
    · intro h
      exact Nat.mul_le_mul_left d (Nat.le_trans (Nat.pow_le_pow_right (by omega) h) k1)
  simp only [Int.natCast_nonneg, if_true, Int.toNat_natCast, hge]
  by_cases hc : a ≤ k.log2
  · simp [hc]; omega
  · simp [hc]; omega

/-- Normalised significand and exponent of `k`. -/
def sig (k : Nat) : Nat := if k.log2 ≤ 52 then k * 2 ^ (52 - k.log2) else k / 2 ^ (k.log2 - 52)

theorem log2_le_53 (k : Nat) (h : k ≤ 2 ^ 53) : k.log2 ≤ 53 := by
  by_cases hk : k = 0
  · simp [hk]
  · have := (Nat.log2_lt hk (k := 54)).mpr (by omega)
    omega

theorem log2_eq_53 (k : Nat) (h : k ≤ 2 ^ 53) (h' : ¬ k.log2 ≤ 52) : k = 2 ^ 53 := by
  have hk : k ≠ 0 := by intro e; simp [e] at h'
  have h1 := (log2_bounds k hk).1
  have h2 := log2_le_53 k h
  have : k.log2 = 53 := by omega
  rw [this] at h1
  omega

theorem sig_bounds (k : Nat) (hk : 0 < k) (h : k ≤ 2 ^ 53) : 2 ^ 52 ≤ sig k ∧ sig k < 2 ^ 53 := by
  unfold sig
  split
  · rename_i hl
    obtain ⟨h1, h2⟩ := log2_bounds k (by omega)
    constructor
    · calc 2 ^ 52 = 2 ^ k.log2 * 2 ^ (52 - k.log2) := by rw [← Nat.pow_add]; congr 1; omega
        _ ≤ k * 2 ^ (52 - k.log2) := Nat.mul_le_mul_right _ h1
    · calc k * 2 ^ (52 - k.log2) < 2 ^ (k.log2 + 1) * 2 ^ (52 - k.log2) :=
            Nat.mul_lt_mul_of_pos_right h2 (Nat.two_pow_pos _)
        _ = 2 ^ 53 := by rw [← Nat.pow_add]; congr 1; omega
  · rename_i hl
    rw [log2_eq_53 k h hl, Nat.log2_two_pow, Nat.pow_div (by omega) (by omega)]
    exact ⟨Nat.le_refl _, Nat.pow_lt_pow_right (by omega) (by omega)⟩

theorem sig_value (k : Nat) (h : k ≤ 2 ^ 53) : sig k * 2 ^ (k.log2 + 1022) = k * 2 ^ 1074 := by
  unfold sig
  split
  · rename_i hl
    rw [Nat.mul_assoc, ← Nat.pow_add, show 52 - k.log2 + (k.log2 + 1022) = 1074 by omega]
  · rename_i hl
    have hk := log2_eq_53 k h hl
    rw [hk, Nat.log2_two_pow, Nat.pow_div (by omega) (by omega), ← Nat.pow_add, ← Nat.pow_add]

/-- An integer quotient up to 2^53 is represented by its normalised significand and exponent. -/
theorem ofRatio_int (neg : Bool) (k d : Nat) (hk : 0 < k) (h : k ≤ 2 ^ 53) (hd : 0 < d) :
    ofRatio neg (k * d) d =
      UInt64.ofNat ((k.log2 + 1023) * 2 ^ 52 + (sig k - 2 ^ 52) + (if neg then 2 ^ 63 else 0)) := by
  have hl := log2_le_53 k h
  obtain ⟨s1, s2⟩ := sig_bounds k hk h
  unfold ofRatio
  have hne : k * d ≠ 0 := by have := Nat.mul_pos hk hd; omega
  simp only [hne, if_false, floorLog2_int k d hk hd]
  have hmax : max ((k.log2 : Int) - 52) (-1074) = (k.log2 : Int) - 52 := by omega
  rw [hmax]
  have hq : (if 0 ≤ (k.log2 : Int) - 52 then rne (k * d) (d * 2 ^ ((k.log2 : Int) - 52).toNat)
      else rne (k * d * 2 ^ (-((k.log2 : Int) - 52)).toNat) d) = sig k := by
    by_cases h52 : k.log2 ≤ 52
    · have : (-((k.log2 : Int) - 52)).toNat = 52 - k.log2 := by omega
      rw [this]
      have hs : sig k = k * 2 ^ (52 - k.log2) := by simp [sig, h52]
      by_cases he : k.log2 = 52
      · rw [if_pos (by omega), hs, he]
        simpa using rne_mul k d hd
      · rw [if_neg (by omega), hs, Nat.mul_right_comm]
        exact rne_mul _ d hd
    · have hk' := log2_eq_53 k h h52
      have h53 : k.log2 = 53 := by omega
      have hs : sig k = 2 ^ 52 := by
        rw [hk', sig, Nat.log2_two_pow, if_neg (by omega), Nat.pow_div (by omega) (by omega)]
      rw [if_pos (by omega), h53, hs, hk']
      have : 2 ^ 53 * d = 2 ^ 52 * (d * 2 ^ ((53 : Nat) - 52 : Int).toNat) := by
        have : ((53 : Nat) - 52 : Int).toNat = 1 := by decide
        rw [this]; omega
      rw [this]
      exact rne_mul _ _ (Nat.mul_pos hd (Nat.two_pow_pos _))
  rw [hq]
  have he : ((k.log2 : Int) - 52 + 1074).toNat = k.log2 + 1022 := by omega
  rw [he]
  refine congrArg UInt64.ofNat ?_
  have : (k.log2 + 1022) * 2 ^ 52 + sig k ≤ 2047 * 2 ^ 52 := by
    have aux : ∀ x q : Nat, x ≤ 1075 → q < 2 ^ 53 → x * 2 ^ 52 + q ≤ 2047 * 2 ^ 52 := by omega
    exact aux _ _ (by omega) s2
  rw [Nat.min_eq_left this]
  have : (k.log2 + 1023) * 2 ^ 52 = (k.log2 + 1022) * 2 ^ 52 + 2 ^ 52 := by omega
  omega

/-- The fields of a pattern put together from exponent `x`, fraction `y` and sign. -/
theorem fields' (neg : Bool) (x y : Nat) (hx : x < 2 ^ 11) (hy : y < 2 ^ 52) :
    let b := UInt64.ofNat (x * 2 ^ 52 + y + (if neg then 2 ^ 63 else 0))
    b.toNat % 2 ^ 63 / 2 ^ 52 = x ∧ b.toNat / 2 ^ 52 % 2 ^ 11 = x ∧ b.toNat % 2 ^ 63 % 2 ^ 52 = y ∧
    b.toNat % 2 ^ 52 = y ∧ (2 ^ 63 ≤ b.toNat ↔ neg = true) := by
  intro b
  have hb : b.toNat = x * 2 ^ 52 + y + (if neg then 2 ^ 63 else 0) := by
    show (UInt64.ofNat _).toNat = _
    rw [UInt64.toNat_ofNat', Nat.mod_eq_of_lt]
    split <;> omega
  rw [hb]
  cases neg <;> simp <;> omega

/-- The fields of the pattern of `ofRatio_int`. -/
theorem fields (neg : Bool) (k : Nat) (hk : 0 < k) (h : k ≤ 2 ^ 53) :
    let b := UInt64.ofNat ((k.log2 + 1023) * 2 ^ 52 + (sig k - 2 ^ 52) + (if neg then 2 ^ 63 else 0))
    b.toNat % 2 ^ 63 / 2 ^ 52 = k.log2 + 1023 ∧ b.toNat / 2 ^ 52 % 2 ^ 11 = k.log2 + 1023 ∧
    b.toNat % 2 ^ 63 % 2 ^ 52 = sig k - 2 ^ 52 ∧
    b.toNat % 2 ^ 52 = sig k - 2 ^ 52 ∧ (2 ^ 63 ≤ b.toNat ↔ neg = true) := by
  have hl := log2_le_53 k h
  obtain ⟨s1, s2⟩ := sig_bounds k hk h
  exact fields' neg _ _ (by omega) (by omega)

theorem isInt_pattern (neg : Bool) (k : Nat) (hk : 0 < k) (h : k ≤ 2 ^ 53) :
    Spec.F64.IsInt (UInt64.ofNat ((k.log2 + 1023) * 2 ^ 52 + (sig k - 2 ^ 52) + (if neg then 2 ^ 63 else 0)))
      (if neg then -(k : Int) else k) := by
  have hl := log2_le_53 k h
  obtain ⟨s1, s2⟩ := sig_bounds k hk h
  obtain ⟨_, f2, _, f3, f4⟩ := fields neg k hk h
  generalize UInt64.ofNat ((k.log2 + 1023) * 2 ^ 52 + (sig k - 2 ^ 52) + (if neg then 2 ^ 63 else 0)) = b at *
  have hm : Spec.F64.mag b = k * 2 ^ 1074 := by
    unfold Spec.F64.mag Spec.F64.expo Spec.F64.frac
    rw [f2, f3, if_neg (by omega)]
    rw [show 2 ^ 52 + (sig k - 2 ^ 52) = sig k by omega, show k.log2 + 1023 - 1 = k.log2 + 1022 by omega]
    exact sig_value k h
  refine ⟨by unfold Spec.F64.expo; rw [f2]; omega, ?_⟩
  rw [hm]
  unfold Spec.F64.neg
  cases neg with
  | true => simp only [f4, if_true, decide_true, Int.natCast_mul, Int.neg_mul]; rfl
  | false => simp only [f4, Bool.false_eq_true, if_false, decide_false, Int.natCast_mul]; rfl

theorem ofInt_isInt (i : Int) (h : i.natAbs ≤ 2 ^ 53) : Spec.F64.IsInt (ofInt i) i := by
  unfold ofInt
  by_cases h0 : i = 0
  · subst h0
    have : ofRatio (decide ((0 : Int) < 0)) (Int.natAbs 0) 1 = 0 := by decide
    rw [this]
    have h2 : Spec.F64.mag 0 = 0 := by decide
    refine ⟨by decide, ?_⟩
    rw [h2]
    simp
  · have hp : 0 < i.natAbs := by omega
    have := ofRatio_int (decide (i < 0)) i.natAbs 1 hp h (by omega)
    rw [Nat.mul_one] at this
    rw [this]
    have h2 := isInt_pattern (decide (i < 0)) i.natAbs hp h
    have : (if decide (i < 0) = true then -(i.natAbs : Int) else i.natAbs) = i := by
      by_cases hi : i < 0
      · simp [hi]; omega
      · simp [hi]; omega
    rwa [this] at h2

/-- `parts` of an exact integer: `m * 2^e = k`. -/
theorem parts_int (i : Int) (h0 : i ≠ 0) (h : i.natAbs ≤ 2 ^ 53) :
    finite (ofInt i) = true ∧ ∃ m e, parts (ofInt i) = (decide (i < 0), m, e) ∧
      (0 ≤ e → m * 2 ^ e.toNat = i.natAbs) ∧ (e < 0 → m = i.natAbs * 2 ^ (-e).toNat) := by
  have hp : 0 < i.natAbs := by omega
  have hl := log2_le_53 _ h
  obtain ⟨s1, s2⟩ := sig_bounds _ hp h
  have hr := ofRatio_int (decide (i < 0)) i.natAbs 1 hp h (by omega)
  rw [Nat.mul_one] at hr
  obtain ⟨f1, f2, f3', f3, f4⟩ := fields (decide (i < 0)) i.natAbs hp h
  rw [← hr] at f1 f2 f3 f3' f4
  have e : ofInt i = ofRatio (decide (i < 0)) i.natAbs 1 := rfl
  rw [e]
  refine ⟨?_, ?_⟩
  · unfold finite; rw [f1]; simp; omega
  · refine ⟨sig i.natAbs, (i.natAbs.log2 : Int) - 52, ?_, ?_, ?_⟩
    · unfold parts
      have fn : decide (2 ^ 63 ≤ (ofRatio (decide (i < 0)) i.natAbs 1).toNat) = decide (i < 0) := by
        simpa using f4
      simp only [f1, f3', fn]
      rw [if_neg (by omega), if_neg (by omega)]
      rw [show sig i.natAbs - 2 ^ 52 + 2 ^ 52 = sig i.natAbs by omega,
        show ((i.natAbs.log2 + 1023 : Nat) : Int) - 1075 = (i.natAbs.log2 : Int) - 52 by omega]
    · intro he
      have : ((i.natAbs.log2 : Int) - 52).toNat = i.natAbs.log2 - 52 := by omega
      rw [this]
      have hv := sig_value _ h
      rw [show i.natAbs.log2 + 1022 = (i.natAbs.log2 - 52) + 1074 by omega, Nat.pow_add, ← Nat.mul_assoc] at hv
      exact Nat.eq_of_mul_eq_mul_right (Nat.two_pow_pos _) hv
    · intro he
      have : (-((i.natAbs.log2 : Int) - 52)).toNat = 52 - i.natAbs.log2 := by omega
      rw [this]
      simp [sig, show i.natAbs.log2 ≤ 52 by omega]

theorem ofRatio_eq (neg : Bool) (k d : Nat) (hk : 0 < k) (h : k ≤ 2 ^ 53) (hd : 0 < d) :
    ofRatio neg (k * d) d = ofRatio neg k 1 := by
  have := ofRatio_int neg k 1 hk h (by omega)
  rw [Nat.mul_one] at this
  rw [ofRatio_int neg k d hk h hd, this]

theorem mul1000_int (i : Int) (h : (i * 1000).natAbs ≤ 2 ^ 53) : mul1000 (ofInt i) = ofInt (i * 1000) := by
  by_cases h0 : i = 0
  · subst h0; decide
  · obtain ⟨hf, m, e, hp, h1, h2⟩ := parts_int i h0 (by omega)
    unfold mul1000
    rw [if_pos hf, hp]
    have hn : decide (i * 1000 < 0) = decide (i < 0) := by
      congr 1; apply propext; omega
    unfold ofInt
    rw [hn]
    have ha : (i * 1000).natAbs = i.natAbs * 1000 := by omega
    rw [ha]
    by_cases he : 0 ≤ e
    · simp only [he, if_true]
      rw [Nat.mul_right_comm, h1 he]
    · simp only [he, if_false]
      rw [h2 (by omega), Nat.mul_right_comm]
      exact ofRatio_eq _ _ _ (by omega) (by omega) (Nat.two_pow_pos _)

theorem div1000_int (i : Int) (h : (i * 1000).natAbs ≤ 2 ^ 53) : div1000 (ofInt (i * 1000)) = ofInt i := by
  by_cases h0 : i = 0
  · subst h0; decide
  · obtain ⟨hf, m, e, hp, h1, h2⟩ := parts_int (i * 1000) (by omega) h
    unfold div1000
    rw [if_pos hf, hp]
    have hn : decide (i * 1000 < 0) = decide (i < 0) := by
      congr 1; apply propext; omega
    have ha : (i * 1000).natAbs = i.natAbs * 1000 := by omega
    unfold ofInt
    rw [hn]
    by_cases he : 0 ≤ e
    · simp only [he, if_true]
      rw [h1 he, ha]
      exact ofRatio_eq _ _ _ (by omega) (by omega) (by omega)
    · simp only [he, if_false]
      rw [h2 (by omega), ha, Nat.mul_assoc]
      exact ofRatio_eq _ _ _ (by omega) (by omega) (Nat.mul_pos (by omega) (Nat.two_pow_pos _))

theorem toInt64_int (i : Int) (h : i.natAbs ≤ 2 ^ 53) : toInt64 (ofInt i) = i := by
  by_cases h0 : i = 0
  · subst h0; decide +kernel
  · obtain ⟨hf, m, e, hp, h1, h2⟩ := parts_int i h0 h
    unfold toInt64
    rw [if_pos hf, hp]
    simp only
    have hn : (if 0 ≤ e then m * 2 ^ e.toNat else m / 2 ^ (-e).toNat) = i.natAbs := by
      by_cases he : 0 ≤ e
      · rw [if_pos he, h1 he]
      · rw [if_neg he, h2 (by omega), Nat.mul_div_cancel _ (Nat.two_pow_pos _)]
    rw [hn]
    have : (if decide (i < 0) = true then -(i.natAbs : Int) else i.natAbs) = i := by
      by_cases hi : i < 0
      · simp [hi]; omega
      · simp [hi]; omega
    rw [this, if_pos (by omega)]

end Verif.F64
