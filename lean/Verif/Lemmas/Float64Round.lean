import Verif.Lemmas.Float64
/-!
# The model's rounding is the one of IEEE 754

`ofRatio` yields the nearest pattern, ties to even.
-/
namespace Verif.F64
open Verif.Spec.F64 (expo frac neg mag value off Nearest)

/-- Rounding to a multiple of `u` finds a nearest one; if another is as near the factor is even. -/
theorem rne_near (p u : Nat) (hu : 0 < u) (j : Nat) :
    ((rne p u * u : Nat) - (p : Int)).natAbs ≤ ((j * u : Nat) - (p : Int)).natAbs ∧
    (((rne p u * u : Nat) - (p : Int)).natAbs = ((j * u : Nat) - (p : Int)).natAbs → j ≠ rne p u → rne p u % 2 = 0) := by
  have hp := Nat.div_add_mod p u
  have hr := Nat.mod_lt p hu
  rw [Nat.mul_comm] at hp
  unfold rne
  simp only
  generalize p / u = q at *
  generalize p % u = r at *
  have hlow : j ≤ q → j * u ≤ q * u := fun h => Nat.mul_le_mul_right u h
  have hhigh : q + 1 ≤ j → (q + 1) * u ≤ j * u := fun h => Nat.mul_le_mul_right u h
  have hlow' : j + 1 ≤ q → (j + 1) * u ≤ q * u := fun h => Nat.mul_le_mul_right u h
  have hhigh' : q + 2 ≤ j → (q + 2) * u ≤ j * u := fun h => Nat.mul_le_mul_right u h
  simp only [Nat.add_mul, Nat.one_mul] at hhigh hlow' hhigh'
  have hjq : j = q → j * u = q * u := fun h => by rw [h]
  have hjq1 : j = q + 1 → j * u = q * u + u := fun h => by rw [h, Nat.add_mul, Nat.one_mul]
  split
  · rw [Nat.add_mul, Nat.one_mul]
    generalize q * u = a at *
    generalize j * u = b at *
    constructor <;> omega
  · generalize q * u = a at *
    generalize j * u = b at *
    constructor <;> omega

theorem rne_scale (p u c : Nat) (hc : 0 < c) : rne (p * c) (u * c) = rne p u := by
  unfold rne
  simp only [Nat.mul_div_mul_right p u hc, Nat.mul_mod_mul_right]
  have h1 : (2 * (p % u * c) > u * c) = (2 * (p % u) > u) := by
    rw [← Nat.mul_assoc]
    exact propext (Nat.mul_lt_mul_right hc)
  have h2 : (2 * (p % u * c) = u * c) = (2 * (p % u) = u) := by
    rw [← Nat.mul_assoc]
    exact propext (Nat.mul_left_inj (by omega))
  simp only [h1, h2]

/-- The magnitude of a pattern put together from `k` and `q`. -/
theorem mag_pattern (s : Bool) (k q : Nat) (hq : q ≤ 2 ^ 53) (hk : k = 0 ∨ 2 ^ 52 ≤ q) (hf : k ≤ 2044) :
    let b := UInt64.ofNat (k * 2 ^ 52 + q + (if s then 2 ^ 63 else 0))
    expo b ≠ 2047 ∧ mag b = q * 2 ^ k ∧ neg b = s ∧ frac b % 2 = q % 2 := by
  intro b
  -- exponent and fraction
  have key : ∀ x y, x < 2047 → y < 2 ^ 52 → x * 2 ^ 52 + y = k * 2 ^ 52 + q →
      (if x = 0 then y else (2 ^ 52 + y) * 2 ^ (x - 1)) = q * 2 ^ k → y % 2 = q % 2 →
      expo b ≠ 2047 ∧ mag b = q * 2 ^ k ∧ neg b = s ∧ frac b % 2 = q % 2 := by
    intro x y hx hy hxy hv hpar
    obtain ⟨_, f2, _, f4, f5⟩ := fields' s x y (by omega) hy
    have hb : UInt64.ofNat (x * 2 ^ 52 + y + (if s then 2 ^ 63 else 0)) = b := by rw [hxy]
    rw [hb] at f2 f4 f5
    have e1 : expo b = x := f2
    have e2 : frac b = y := f4
    refine ⟨by omega, ?_, ?_, by rw [e2]; exact hpar⟩
    · unfold mag; rw [e1, e2]; exact hv
    · have f5' : neg b = true ↔ s = true := by unfold neg; simpa using f5
      cases h : neg b <;> cases s <;> simp_all
  by_cases h1 : q < 2 ^ 52
  · have hk0 : k = 0 := by omega
    subst hk0
    exact key 0 q (by omega) h1 rfl (by simp) rfl
  by_cases h2 : q < 2 ^ 53
  · exact key (k + 1) (q - 2 ^ 52) (by omega) (by omega) (by omega)
      (by rw [if_neg (by omega), show 2 ^ 52 + (q - 2 ^ 52) = q by omega]; rfl) (by omega)
  · have h3 : q = 2 ^ 53 := by omega
    exact key (k + 2) 0 (by omega) (by omega) (by omega)
      (by rw [if_neg (by omega), h3, show k + 2 - 1 = k + 1 by omega, Nat.pow_succ 2 k]; omega) (by omega)

/-- Every finite pattern is of that form. -/
theorem mag_form (b : UInt64) (h : expo b ≠ 2047) :
    ∃ k q, mag b = q * 2 ^ k ∧ q < 2 ^ 53 ∧ (k = 0 ∨ 2 ^ 52 ≤ q) ∧ k ≤ 2045 := by
  have hf : frac b < 2 ^ 52 := Nat.mod_lt _ (by omega)
  have he : expo b < 2 ^ 11 := Nat.mod_lt _ (by omega)
  unfold mag
  split
  · exact ⟨0, frac b, by simp, by omega, .inl rfl, by omega⟩
  · exact ⟨expo b - 1, 2 ^ 52 + frac b, rfl, by omega, .inr (by omega), by omega⟩

/-- `j * 2^k` is the magnitude of a pattern. -/
theorem representable (s : Bool) : (k j : Nat) → j ≤ 2 ^ 53 → k ≤ 2044 →
    ∃ b, expo b ≠ 2047 ∧ mag b = j * 2 ^ k ∧ neg b = s
  | 0, j, hj, hk => by
    obtain ⟨h1, h2, h3, _⟩ := mag_pattern s 0 j hj (.inl rfl) hk
    exact ⟨_, h1, h2, h3⟩
  | k + 1, j, hj, hk => by
    by_cases h : 2 ^ 52 ≤ j
    · obtain ⟨h1, h2, h3, _⟩ := mag_pattern s (k + 1) j hj (.inr h) hk
      exact ⟨_, h1, h2, h3⟩
    · obtain ⟨b, h1, h2, h3⟩ := representable s k (2 * j) (by omega) (by omega)
      exact ⟨b, h1, by rw [h2, Nat.pow_succ, Nat.mul_comm 2 j, Nat.mul_assoc, Nat.mul_comm 2]; , h3⟩

/-- `floorLog2` is the position of the leading digit. -/
theorem floorLog2_spec (num den : Nat) (hn : 0 < num) (hd : 0 < den) :
    (∀ a : Nat, floorLog2 num den = a → den * 2 ^ a ≤ num ∧ num < den * 2 ^ (a + 1)) ∧
    (∀ a : Nat, floorLog2 num den = -(a : Int) → den ≤ num * 2 ^ a ∧ num * 2 ^ a < den * 2) := by
  obtain ⟨n1, n2⟩ := log2_bounds num (by omega)
  obtain ⟨d1, d2⟩ := log2_bounds den (by omega)
  unfold floorLog2
  simp only
  generalize num.log2 = ln at *
  generalize den.log2 = ld at *
  have up : ∀ x y : Nat, x ≤ y → 2 ^ x ≤ 2 ^ y := fun x y h => Nat.pow_le_pow_right (by omega) h
  by_cases hl : ld ≤ ln
  · -- a = ln - ld ≥ 0
    have ha : (0 : Int) ≤ (ln : Int) - ld := by omega
    have hat : ((ln : Int) - (ld : Int)).toNat = ln - ld := by omega
    simp only [ha, if_true, hat]
    by_cases hge : den * 2 ^ (ln - ld) ≤ num
    · simp only [hge, decide_true, if_true]
      have hup : num < den * 2 ^ (ln - ld + 1) := by
        have : 2 ^ ld * 2 ^ (ln - ld + 1) ≤ den * 2 ^ (ln - ld + 1) := Nat.mul_le_mul_right _ d1
        rw [← Nat.pow_add, show ld + (ln - ld + 1) = ln + 1 by omega] at this
        omega
      constructor
      · intro a h
        have : a = ln - ld := by omega
        subst this
        exact ⟨hge, hup⟩
      · intro a h
        have : a = 0 := by omega
        subst this
        have h0 : ln - ld = 0 := by omega
        rw [h0] at hge hup
        simp at hge hup ⊢
        omega
    · simp only [hge, decide_false, Bool.false_eq_true, if_false]
      have hlo : den * 2 ^ (ln - ld) < num * 2 := by
        have : den * 2 ^ (ln - ld) < 2 ^ (ld + 1) * 2 ^ (ln - ld) := Nat.mul_lt_mul_of_pos_right d2 (Nat.two_pow_pos _)
        rw [← Nat.pow_add, show ld + 1 + (ln - ld) = ln + 1 by omega, Nat.pow_succ] at this
        omega
      constructor
      · intro a h
        have : ln - ld = a + 1 := by omega
        rw [this, Nat.pow_succ, ← Nat.mul_assoc] at hlo
        rw [this] at hge
        exact ⟨by omega, by omega⟩
      · intro a h
        have h0 : (ln - ld = 0 ∧ a = 1) ∨ (ln - ld = 1 ∧ a = 0) := by omega
        rcases h0 with ⟨h0, rfl⟩ | ⟨h0, rfl⟩ <;> rw [h0] at hge hlo <;> simp at hge hlo ⊢ <;> omega
  · have ha : ¬ (0 : Int) ≤ (ln : Int) - ld := by omega
    have hat : (-((ln : Int) - (ld : Int))).toNat = ld - ln := by omega
    simp only [ha, if_false, hat]
    by_cases hge : den ≤ num * 2 ^ (ld - ln)
    · simp only [hge, decide_true, if_true]
      have hup : num * 2 ^ (ld - ln) < den * 2 := by
        have : num * 2 ^ (ld - ln) < 2 ^ (ln + 1) * 2 ^ (ld - ln) := Nat.mul_lt_mul_of_pos_right n2 (Nat.two_pow_pos _)
        rw [← Nat.pow_add, show ln + 1 + (ld - ln) = ld + 1 by omega, Nat.pow_succ] at this
        omega
      constructor
      · intro a h; omega
      · intro a h
        have : a = ld - ln := by omega
        subst this
        exact ⟨hge, hup⟩
    · simp only [hge, decide_false, Bool.false_eq_true, if_false]
      have hlo : den < num * 2 ^ (ld - ln) * 2 := by
        have : 2 ^ ln * 2 ^ (ld - ln) ≤ num * 2 ^ (ld - ln) := Nat.mul_le_mul_right _ n1
        rw [← Nat.pow_add, show ln + (ld - ln) = ld by omega] at this
        rw [Nat.pow_succ] at d2
        omega
      constructor
      · intro a h; omega
      · intro a h
        have : a = ld - ln + 1 := by omega
        subst this
        rw [Nat.pow_succ, ← Nat.mul_assoc]
        exact ⟨by omega, by omega⟩

theorem rne_bounds (p u a c : Nat) (h1 : a * u ≤ p) (h2 : p < c * u) : a ≤ rne p u ∧ rne p u ≤ c := by
  have hu : 0 < u := by
    rcases Nat.eq_zero_or_pos u with h | h
    · subst h; simp at h2
    · exact h
  have h3 : a ≤ p / u := (Nat.le_div_iff_mul_le hu).mpr h1
  have h4 : p / u < c := (Nat.div_lt_iff_lt_mul hu).mpr h2
  unfold rne
  simp only
  split <;> omega

/-- What `ofRatio` computes: the significand `q` and the exponent `k`. -/
theorem ofRatio_form (s : Bool) (num den : Nat) (hn : 0 < num) (hd : 0 < den) (hbig : num < den * 2 ^ 1023) :
    ∃ k, ofRatio s num den =
        UInt64.ofNat (k * 2 ^ 52 + rne (num * 2 ^ 1074) (den * 2 ^ k) + (if s then 2 ^ 63 else 0)) ∧ k ≤ 2044 ∧
      num * 2 ^ 1074 < 2 ^ 53 * (den * 2 ^ k) ∧ (k = 0 ∨ 2 ^ 52 * (den * 2 ^ k) ≤ num * 2 ^ 1074) := by
  obtain ⟨p1, p2⟩ := floorLog2_spec num den hn hd
  have hup : ∀ x y : Nat, x ≤ y → den * 2 ^ x ≤ den * 2 ^ y := fun x y h =>
    Nat.mul_le_mul_left _ (Nat.pow_le_pow_right (by omega) h)
  -- the leading digit
  have hk : ∃ k : Nat, max (floorLog2 num den - 52) (-1074) = (k : Int) - 1074 ∧ k ≤ 2044 ∧
      num * 2 ^ 1074 < den * 2 ^ (k + 53) ∧ (k = 0 ∨ den * 2 ^ (k + 52) ≤ num * 2 ^ 1074) := by
    rcases Int.eq_nat_or_neg (floorLog2 num den) with ⟨a, h | h⟩
    · obtain ⟨g1, g2⟩ := p1 a h
      have ha : a ≤ 1022 := by
        rcases Nat.lt_or_ge a 1023 with h' | h'
        · omega
        · have := hup 1023 a h'
          omega
      refine ⟨a + 1022, by omega, by omega, ?_, .inr ?_⟩
      · have := Nat.mul_lt_mul_of_pos_right g2 (Nat.two_pow_pos 1074)
        rw [Nat.mul_assoc, ← Nat.pow_add] at this
        rwa [show a + 1022 + 53 = a + 1 + 1074 by omega]
      · have := Nat.mul_le_mul_right (2 ^ 1074) g1
        rw [Nat.mul_assoc, ← Nat.pow_add] at this
        rwa [show a + 1022 + 52 = a + 1074 by omega]
    · obtain ⟨g1, g2⟩ := p2 a h
      by_cases ha : a ≤ 1022
      · refine ⟨1022 - a, by omega, by omega, ?_, .inr ?_⟩
        · have := Nat.mul_lt_mul_of_pos_right g2 (Nat.two_pow_pos (1074 - a))
          rw [Nat.mul_assoc, ← Nat.pow_add, Nat.mul_assoc, ← Nat.pow_succ', show a + (1074 - a) = 1074 by omega] at this
          rwa [show 1022 - a + 53 = 1074 - a + 1 by omega]
        · have := Nat.mul_le_mul_right (2 ^ (1074 - a)) g1
          rw [Nat.mul_assoc num, ← Nat.pow_add, show a + (1074 - a) = 1074 by omega] at this
          rwa [show 1022 - a + 52 = 1074 - a by omega]
      · refine ⟨0, by omega, by omega, ?_, .inl rfl⟩
        rcases Nat.le_total a 1074 with ha' | ha'
        · have := Nat.mul_lt_mul_of_pos_right g2 (Nat.two_pow_pos (1074 - a))
          rw [Nat.mul_assoc, ← Nat.pow_add, Nat.mul_assoc, ← Nat.pow_succ', show a + (1074 - a) = 1074 by omega] at this
          exact Nat.lt_of_lt_of_le this (hup _ _ (by omega))
        · have h1 : num * 2 ^ 1074 ≤ num * 2 ^ a := Nat.mul_le_mul_left _ (Nat.pow_le_pow_right (by omega) ha')
          have h2 := hup 1 53 (by omega)
          simp only [Nat.pow_one] at h2
          rw [Nat.zero_add]
          omega
  obtain ⟨k, hmax, hk1, hk2, hk3⟩ := hk
  refine ⟨k, ?_, hk1, ?_, ?_⟩
  · unfold ofRatio
    simp only [show ¬ num = 0 by omega, if_false, hmax]
    have hq : (if 0 ≤ (k : Int) - 1074 then rne num (den * 2 ^ ((k : Int) - 1074).toNat)
        else rne (num * 2 ^ (-((k : Int) - 1074)).toNat) den) = rne (num * 2 ^ 1074) (den * 2 ^ k) := by
      by_cases h : 1074 ≤ k
      · rw [if_pos (by omega), show ((k : Int) - 1074).toNat = k - 1074 by omega,
          ← rne_scale num _ (2 ^ 1074) (Nat.two_pow_pos _), Nat.mul_assoc den, ← Nat.pow_add,
          show k - 1074 + 1074 = k by omega]
      · rw [if_neg (by omega), show (-((k : Int) - 1074)).toNat = 1074 - k by omega,
          ← rne_scale _ den (2 ^ k) (Nat.two_pow_pos _), Nat.mul_assoc num, ← Nat.pow_add,
          show 1074 - k + k = 1074 by omega]
    rw [hq, show ((k : Int) - 1074 + 1074).toNat = k by omega]
    have hb : rne (num * 2 ^ 1074) (den * 2 ^ k) ≤ 2 ^ 53 :=
      (rne_bounds _ _ 0 (2 ^ 53) (by simp) (by rw [Nat.pow_add, ← Nat.mul_assoc] at hk2; rwa [Nat.mul_comm (2 ^ 53)])).2
    have aux : ∀ x q : Nat, x ≤ 2044 → q ≤ 2 ^ 53 → x * 2 ^ 52 + q ≤ 2047 * 2 ^ 52 := by omega
    rw [Nat.min_eq_left (aux _ _ hk1 hb)]
  · rw [Nat.pow_add, ← Nat.mul_assoc] at hk2
    rwa [Nat.mul_comm (2 ^ 53)]
  · refine hk3.imp_right fun h => ?_
    rw [Nat.pow_add, ← Nat.mul_assoc] at h
    rwa [Nat.mul_comm (2 ^ 52)]

theorem arith_same (m d n z : Nat) : (-(m : Int) * d - -(n : Int) * z).natAbs = ((m * d : Nat) - (n * z : Nat) : Int).natAbs := by
  rw [← Int.natAbs_neg, Int.natCast_mul, Int.natCast_mul, Int.neg_mul, Int.neg_mul]
  congr 1
  omega

theorem arith_other (m d n z : Nat) : (-(m : Int) * d - (n : Int) * z).natAbs = m * d + n * z ∧
    ((m : Int) * d - -(n : Int) * z).natAbs = m * d + n * z := by
  rw [Int.neg_mul, Int.neg_mul, ← Int.natCast_mul, ← Int.natCast_mul]
  omega

theorem cast_unit : (2 : Int) ^ 1074 = ((2 ^ 1074 : Nat) : Int) := by
  generalize 1074 = n
  rw [Int.natCast_pow]
  rfl

theorem off_same (b : UInt64) (s : Bool) (h : neg b = s) (num den : Nat) :
    off b (if s then -(num : Int) else num) den = ((mag b * den : Nat) - (num * 2 ^ 1074 : Nat) : Int).natAbs := by
  unfold off value
  rw [cast_unit]
  generalize 2 ^ 1074 = z
  subst h
  cases neg b
  · simp only [Bool.false_eq_true, if_false, Int.natCast_mul]
  · simp only [if_true]
    exact arith_same _ _ _ _

theorem off_other (b : UInt64) (s : Bool) (h : neg b ≠ s) (num den : Nat) :
    off b (if s then -(num : Int) else num) den = mag b * den + num * 2 ^ 1074 := by
  unfold off value
  rw [cast_unit]
  generalize 2 ^ 1074 = z
  have : neg b = !s := by generalize neg b = n at h; cases n <;> cases s <;> simp_all
  rw [this]
  cases s
  · simp only [Bool.not_false, if_true, Bool.false_eq_true, if_false]
    exact (arith_other _ _ _ _).1
  · simp only [Bool.not_true, if_true, Bool.false_eq_true, if_false]
    exact (arith_other _ _ _ _).2

/-- The pattern of `q * 2^k` is nearest to `P`, in multiples of 1/den of the unit. -/
theorem near_core (den P k q m : Nat) (hd : 0 < den)
    (hnear : ∀ j, ((q * (den * 2 ^ k) : Nat) - (P : Int)).natAbs ≤ ((j * (den * 2 ^ k) : Nat) - (P : Int)).natAbs ∧
      (((q * (den * 2 ^ k) : Nat) - (P : Int)).natAbs = ((j * (den * 2 ^ k) : Nat) - (P : Int)).natAbs → j ≠ q → q % 2 = 0))
    (hge : k = 0 ∨ 2 ^ 52 * (den * 2 ^ k) ≤ P) (k' q' : Nat) (f1 : m = q' * 2 ^ k') (f2 : q' < 2 ^ 53) :
    ((q * (den * 2 ^ k) : Nat) - (P : Int)).natAbs ≤ ((m * den : Nat) - (P : Int)).natAbs ∧
    (m ≠ q * 2 ^ k → ((q * (den * 2 ^ k) : Nat) - (P : Int)).natAbs = ((m * den : Nat) - (P : Int)).natAbs → q % 2 = 0) := by
  by_cases hkk : k ≤ k'
  · have hj : m * den = q' * 2 ^ (k' - k) * (den * 2 ^ k) := by
      rw [f1, Nat.mul_assoc, Nat.mul_assoc, Nat.mul_comm den, ← Nat.mul_assoc (2 ^ (k' - k)), ← Nat.pow_add,
        show k' - k + k = k' by omega]
    rw [hj]
    obtain ⟨n1, n2⟩ := hnear (q' * 2 ^ (k' - k))
    refine ⟨n1, fun hv he => n2 he fun hjq => hv ?_⟩
    rw [f1, ← hjq, Nat.mul_assoc, ← Nat.pow_add, show k' - k + k = k' by omega]
  · have hge' := hge.resolve_left (by omega)
    obtain ⟨n1, _⟩ := hnear (2 ^ 52)
    have hlt' : m * den < 2 ^ 52 * (den * 2 ^ k) := by
      have e1 : m < 2 ^ 53 * 2 ^ k' := by
        rw [f1]; exact Nat.mul_lt_mul_of_pos_right f2 (Nat.two_pow_pos _)
      have e2 : 2 ^ 53 * 2 ^ k' ≤ 2 ^ 52 * 2 ^ k := by
        rw [← Nat.pow_add, ← Nat.pow_add]
        exact Nat.pow_le_pow_right (by omega) (by omega)
      have e3 : m * den < 2 ^ 52 * 2 ^ k * den := Nat.mul_lt_mul_of_pos_right (by omega) hd
      rwa [Nat.mul_assoc, Nat.mul_comm (2 ^ k)] at e3
    clear hnear hge f1 f2 hkk
    generalize m * den = x at *
    generalize 2 ^ 52 * (den * 2 ^ k) = y at *
    generalize q * (den * 2 ^ k) = z at *
    constructor <;> omega

theorem near_zero (z P x q : Nat) (h : ((z : Nat) - (P : Int)).natAbs ≤ (((0 : Nat) : Int) - (P : Int)).natAbs ∧
      (((z : Nat) - (P : Int)).natAbs = (((0 : Nat) : Int) - (P : Int)).natAbs → 0 ≠ q → q % 2 = 0)) {p : Prop} :
    ((z : Nat) - (P : Int)).natAbs ≤ x + P ∧ (p → ((z : Nat) - (P : Int)).natAbs = x + P → q % 2 = 0) := by
  refine ⟨by omega, fun _ he => ?_⟩
  by_cases hq : q = 0
  · omega
  · exact h.2 (by omega) (by omega)

/-- `ofRatio` rounds to nearest, ties to even. -/
theorem ofRatio_nearest (s : Bool) (num den : Nat) (hd : 0 < den) (hbig : num < den * 2 ^ 1023) :
    Nearest (ofRatio s num den) (if s then -(num : Int) else num) den := by
  rcases Nat.eq_zero_or_pos num with h0 | hn
  · subst h0
    have hb : ∃ b, ofRatio s 0 den = b ∧ expo b ≠ 2047 ∧ value b = 0 ∧ frac b % 2 = 0 := by
      refine ⟨_, rfl, ?_⟩
      have : ofRatio s 0 den = if s then 0x8000000000000000 else 0 := by
        unfold ofRatio
        rw [if_pos rfl]
        cases s <;> rfl
      rw [this]
      cases s <;> decide +kernel
    obtain ⟨b, hb, h1, h2, h3⟩ := hb
    rw [hb]
    have h4 : (if s then -((0 : Nat) : Int) else (0 : Nat)) = 0 := by cases s <;> rfl
    rw [h4]
    refine ⟨h1, fun b' _ => ?_, fun _ _ _ _ => h3⟩
    have h5 : off b 0 den = 0 := by
      unfold off
      rw [h2, cast_unit]
      generalize 2 ^ 1074 = z
      simp
    rw [h5]
    exact Nat.zero_le _
  obtain ⟨k, hr, hk, hlt, hge⟩ := ofRatio_form s num den hn hd hbig
  rw [hr]
  have hu : 0 < den * 2 ^ k := Nat.mul_pos hd (Nat.two_pow_pos _)
  have hnear := rne_near (num * 2 ^ 1074) (den * 2 ^ k) hu
  have hq1 : rne (num * 2 ^ 1074) (den * 2 ^ k) ≤ 2 ^ 53 := (rne_bounds _ _ 0 (2 ^ 53) (by simp) hlt).2
  have hq2 : k = 0 ∨ 2 ^ 52 ≤ rne (num * 2 ^ 1074) (den * 2 ^ k) := hge.imp_right fun h =>
    (rne_bounds _ _ (2 ^ 52) (2 ^ 53) h hlt).1
  generalize hq : rne (num * 2 ^ 1074) (den * 2 ^ k) = q at *
  obtain ⟨m1, m2, m3, m4⟩ := mag_pattern s k q hq1 hq2 hk
  generalize UInt64.ofNat (k * 2 ^ 52 + q + (if s then 2 ^ 63 else 0)) = b at *
  have hoff : off b (if s then -(num : Int) else num) den = ((q * (den * 2 ^ k) : Nat) - (num * 2 ^ 1074 : Nat) : Int).natAbs := by
    rw [off_same b s m3, m2, Nat.mul_assoc, Nat.mul_comm (2 ^ k)]
  have main : ∀ b', expo b' ≠ 2047 → off b (if s then -(num : Int) else num) den ≤ off b' (if s then -(num : Int) else num) den ∧
      (value b' ≠ value b → off b (if s then -(num : Int) else num) den = off b' (if s then -(num : Int) else num) den → q % 2 = 0) := by
    intro b' hb'
    by_cases hs : neg b' = s
    · rw [hoff, off_same b' s hs]
      obtain ⟨k', q', f1, f2, _, _⟩ := mag_form b' hb'
      obtain ⟨n1, n2⟩ := near_core den _ k q (mag b') hd hnear hge k' q' f1 f2
      refine ⟨n1, fun hv he => n2 (fun hm => hv ?_) he⟩
      unfold value
      rw [hs, m3, m2, hm]
    · rw [hoff, off_other b' s hs]
      exact near_zero _ _ _ q (by have := hnear 0; rwa [Nat.zero_mul] at this)
  exact ⟨m1, fun b' hb' => (main b' hb').1, fun b' hb' hv he => by rw [m4]; exact (main b' hb').2 hv he⟩

theorem ofRatio_neg (s : Bool) (num den : Nat) (hn : 0 < num) (hd : 0 < den) (hbig : num < den * 2 ^ 1023) :
    neg (ofRatio s num den) = s := by
  obtain ⟨k, hr, hk, hlt, hge⟩ := ofRatio_form s num den hn hd hbig
  have hq1 : rne (num * 2 ^ 1074) (den * 2 ^ k) ≤ 2 ^ 53 := (rne_bounds _ _ 0 (2 ^ 53) (by simp) hlt).2
  have hq2 : k = 0 ∨ 2 ^ 52 ≤ rne (num * 2 ^ 1074) (den * 2 ^ k) := hge.imp_right fun h =>
    (rne_bounds _ _ (2 ^ 52) (2 ^ 53) h hlt).1
  rw [hr]
  exact (mag_pattern s k _ hq1 hq2 hk).2.2.1

/-- Whoever is nearer than a point between them is on the near side. -/
theorem near_low (x p y : Nat) (h : ((x : Int) - y).natAbs ≤ ((p : Int) - y).natAbs) (hp : p ≤ y) : p ≤ x := by omega
theorem near_high (x p y : Nat) (h : ((x : Int) - y).natAbs ≤ ((p : Int) - y).natAbs) (hp : y ≤ p) : x ≤ p := by omega

/-- The quotient by 1000, rounded, has the right whole part. -/
theorem ofRatio_whole (s : Bool) (n c : Nat) (hn : 0 < n) (hc : 0 < c) (hb : n ≤ 8640000000000000) :
    let b := ofRatio s (n * c) (1000 * c)
    expo b ≠ 2047 ∧ neg b = s ∧ mag b / 2 ^ 1074 = n / 1000 := by
  intro b
  have hbig : n * c < 1000 * c * 2 ^ 1023 := by
    have h1 : n < 1000 * 2 ^ 1023 := by
      have : (2 : Nat) ^ 53 ≤ 2 ^ 1023 := Nat.pow_le_pow_right (by omega) (by omega)
      generalize 2 ^ 1023 = z at *
      omega
    have := Nat.mul_lt_mul_of_pos_right h1 hc
    rwa [Nat.mul_right_comm] at this
  have hd : 0 < 1000 * c := by omega
  have hnear := ofRatio_nearest s (n * c) (1000 * c) hd hbig
  have hneg := ofRatio_neg s (n * c) (1000 * c) (Nat.mul_pos hn hc) hd hbig
  refine ⟨hnear.finite, hneg, ?_⟩
  have hcmp : ∀ b', expo b' ≠ 2047 → neg b' = s →
      (((mag b * 1000 * c : Nat) : Int) - (n * 2 ^ 1074 * c : Nat)).natAbs ≤
        (((mag b' * 1000 * c : Nat) : Int) - (n * 2 ^ 1074 * c : Nat)).natAbs := by
    intro b' h1 h2
    have := hnear.near b' h1
    rw [off_same _ s hneg, off_same b' s h2, ← Nat.mul_assoc, ← Nat.mul_assoc, Nat.mul_right_comm n c] at this
    exact this
  obtain ⟨b1, r1, r2, r3⟩ := representable s 1074 (n / 1000) (by omega) (by omega)
  obtain ⟨b2, t1, t2, t3⟩ := representable s 1064 ((n / 1000 + 1) * 1024 - 1) (by omega) (by omega)
  have c1 := hcmp b1 r1 r3
  have c2 := hcmp b2 t1 t3
  rw [r2] at c1
  rw [t2] at c2
  have hz : (2 : Nat) ^ 1074 = 1024 * 2 ^ 1064 := by
    rw [show (1024 : Nat) = 2 ^ 10 by decide, ← Nat.pow_add]
  have hy : 0 < (2 : Nat) ^ 1064 := Nat.two_pow_pos _
  rw [hz] at c1 c2 ⊢
  clear hz hcmp hnear hneg hbig r1 r2 r3 t1 t2 t3
  generalize (2 : Nat) ^ 1064 = y at *
  generalize mag b = m at *
  have hK := Nat.div_add_mod n 1000
  have hr := Nat.mod_lt n (show 0 < 1000 by omega)
  generalize n / 1000 = K at *
  generalize n % 1000 = r at *
  have l1 : K * (1024 * y) * 1000 ≤ n * (1024 * y) := by
    rw [Nat.mul_right_comm]
    exact Nat.mul_le_mul_right _ (by omega)
  have l2 : n * (1024 * y) ≤ ((K + 1) * 1024 - 1) * y * 1000 := by
    rw [Nat.mul_right_comm _ y, ← Nat.mul_assoc]
    refine Nat.mul_le_mul_right _ ?_
    clear c1 c2 l1 hb hn hc hd hy
    omega
  have g1 := near_low _ _ _ c1 (Nat.mul_le_mul_right c l1)
  have g2 := near_high _ _ _ c2 (Nat.mul_le_mul_right c l2)
  have g1' := Nat.le_of_mul_le_mul_right (Nat.le_of_mul_le_mul_right g1 hc) (by omega)
  have g2' := Nat.le_of_mul_le_mul_right (Nat.le_of_mul_le_mul_right g2 hc) (by omega)
  have g3 : m < (K + 1) * (1024 * y) := by
    have : ((K + 1) * 1024 - 1) * y < (K + 1) * 1024 * y := Nat.mul_lt_mul_of_pos_right (by omega) hy
    rw [Nat.mul_assoc] at this
    omega
  exact Nat.div_eq_of_lt_le g1' g3

/-- `int64(f)` drops the fraction. -/
theorem toInt64_eq (b : UInt64) (n : Nat) (h1 : expo b ≠ 2047) (h2 : mag b / 2 ^ 1074 = n) :
    toInt64 b = if -(2 ^ 63) ≤ (if neg b then -(n : Int) else n) ∧ (if neg b then -(n : Int) else n) < 2 ^ 63
      then (if neg b then -(n : Int) else n) else -(2 ^ 63) := by
  have hlt := b.toNat_lt
  have he : b.toNat % 2 ^ 63 / 2 ^ 52 = expo b := by unfold expo; omega
  have hf : b.toNat % 2 ^ 63 % 2 ^ 52 = frac b := by unfold frac; omega
  have hfin : finite b = true := by unfold finite; rw [he]; simpa using h1
  have hparts : parts b = (neg b, if expo b = 0 then frac b else frac b + 2 ^ 52, if expo b = 0 then -1074 else (expo b : Int) - 1075) := by
    unfold parts
    simp only [he, hf]
    rfl
  unfold toInt64
  rw [if_pos hfin, hparts]
  simp only
  have hv : (if 0 ≤ (if expo b = 0 then -1074 else (expo b : Int) - 1075) then
        (if expo b = 0 then frac b else frac b + 2 ^ 52) * 2 ^ (if expo b = 0 then -1074 else (expo b : Int) - 1075).toNat
      else (if expo b = 0 then frac b else frac b + 2 ^ 52) / 2 ^ (-(if expo b = 0 then -1074 else (expo b : Int) - 1075)).toNat) = n := by
    rw [← h2]
    unfold mag
    generalize expo b = x
    by_cases hx : x = 0
    · subst hx
      rfl
    · simp only [hx, if_false]
      rw [Nat.add_comm (frac b)]
      by_cases hge : 1075 ≤ x
      · rw [if_pos (by omega), show ((x : Int) - 1075).toNat = x - 1075 by omega, show x - 1 = x - 1075 + 1074 by omega,
          Nat.pow_add, ← Nat.mul_assoc, Nat.mul_div_cancel _ (Nat.two_pow_pos _)]
      · rw [if_neg (by omega), show (-((x : Int) - 1075)).toNat = 1075 - x by omega]
        have : (2 : Nat) ^ 1074 = 2 ^ (1075 - x) * 2 ^ (x - 1) := by rw [← Nat.pow_add]; congr 1; omega
        rw [this, Nat.mul_div_mul_right _ _ (Nat.two_pow_pos _)]
  rw [hv]

/-- `int64(f)` in range. -/
theorem toInt64_whole (b : UInt64) (n : Nat) (h1 : expo b ≠ 2047) (h2 : mag b / 2 ^ 1074 = n) (h3 : n < 2 ^ 63) :
    toInt64 b = if neg b then -(n : Int) else n := by
  rw [toInt64_eq b n h1 h2]
  cases neg b
  · simp only [Bool.false_eq_true, if_false]
    rw [if_pos (by omega)]
  · simp only [if_true]
    rw [if_pos (by omega)]

/-- `int64(f)` out of range. -/
theorem toInt64_remote (b : UInt64) (h1 : expo b ≠ 2047) (h2 : 2 ^ 63 ≤ mag b / 2 ^ 1074) : toInt64 b = -(2 ^ 63) := by
  rw [toInt64_eq b _ h1 rfl]
  generalize mag b / 2 ^ 1074 = n at *
  cases neg b <;> simp only [Bool.false_eq_true, if_true, if_false] <;> split <;> omega

/-- Milliseconds to seconds: the fraction is dropped. -/
theorem seconds (i : Int) (h : i.natAbs ≤ 8640000000000000) : toInt64 (div1000 (ofInt i)) = Int.tdiv i 1000 := by
  by_cases h0 : i = 0
  · subst h0; decide +kernel
  obtain ⟨hf, m, e, hp, h1, h2⟩ := parts_int i h0 (by omega)
  have hc : ∃ c, 0 < c ∧ div1000 (ofInt i) = ofRatio (decide (i < 0)) (i.natAbs * c) (1000 * c) := by
    unfold div1000
    rw [if_pos hf, hp]
    by_cases he : 0 ≤ e
    · exact ⟨1, by omega, by simp only [he, if_true, h1 he, Nat.mul_one]⟩
    · exact ⟨2 ^ (-e).toNat, Nat.two_pow_pos _, by simp only [he, if_false, h2 (by omega)]⟩
  obtain ⟨c, hc, hr⟩ := hc
  rw [hr]
  obtain ⟨g1, g2, g3⟩ := ofRatio_whole (decide (i < 0)) i.natAbs c (by omega) hc h
  rw [toInt64_whole _ _ g1 g3 (by omega), g2]
  by_cases hi : i < 0
  · simp only [hi, decide_true, if_true]
    obtain ⟨k, rfl⟩ : ∃ k : Nat, i = -(k : Int) := ⟨i.natAbs, by omega⟩
    rw [Int.neg_tdiv, Int.natAbs_neg, Int.natAbs_natCast]
    rfl
  · simp only [hi, decide_false, Bool.false_eq_true, if_false]
    obtain ⟨k, rfl⟩ : ∃ k : Nat, i = (k : Int) := ⟨i.natAbs, by omega⟩
    rfl

theorem mag_inj (b b' : UInt64) (h : mag b = mag b') (h' : neg b = neg b') : b = b' := by
  have e1 : expo b = expo b' ∧ frac b = frac b' := by
    have f1 : frac b < 2 ^ 52 := Nat.mod_lt _ (by omega)
    have f2 : frac b' < 2 ^ 52 := Nat.mod_lt _ (by omega)
    unfold mag at h
    generalize expo b = x at *
    generalize expo b' = x' at *
    generalize frac b = f at *
    generalize frac b' = f' at *
    have hstep : ∀ x x' f f' : Nat, x < x' → f < 2 ^ 52 → (2 ^ 52 + f) * 2 ^ (x - 1) < (2 ^ 52 + f') * 2 ^ (x' - 1) ∨ x = 0 := by
      intro x x' f f' hx hf
      rcases Nat.eq_zero_or_pos x with h0 | h0
      · exact .inr h0
      · left
        have e1 : (2 ^ 52 + f) * 2 ^ (x - 1) < 2 ^ 53 * 2 ^ (x - 1) := Nat.mul_lt_mul_of_pos_right (by omega) (Nat.two_pow_pos _)
        have e2 : 2 ^ 53 * 2 ^ (x - 1) ≤ 2 ^ 52 * 2 ^ (x' - 1) := by
          rw [← Nat.pow_add, ← Nat.pow_add]
          exact Nat.pow_le_pow_right (by omega) (by omega)
        have e3 : 2 ^ 52 * 2 ^ (x' - 1) ≤ (2 ^ 52 + f') * 2 ^ (x' - 1) := Nat.mul_le_mul_right _ (by omega)
        omega
    have hone : ∀ y : Nat, 1 ≤ 2 ^ (y - 1) := fun y => Nat.one_le_two_pow
    have hbig : ∀ y f : Nat, 2 ^ 52 ≤ (2 ^ 52 + f) * 2 ^ (y - 1) := fun y f => by
      have := Nat.mul_le_mul_left (2 ^ 52 + f) (hone y)
      omega
    by_cases hx : x = 0
    · subst hx
      rw [if_pos rfl] at h
      by_cases hx' : x' = 0
      · rw [if_pos hx'] at h; exact ⟨hx'.symm, h⟩
      · rw [if_neg hx'] at h
        have := hbig x' f'
        omega
    · rw [if_neg hx] at h
      by_cases hx' : x' = 0
      · rw [if_pos hx'] at h
        have := hbig x f
        omega
      · rw [if_neg hx'] at h
        rcases Nat.lt_trichotomy x x' with hl | hl | hl
        · have := (hstep x x' f f' hl f1).resolve_right hx
          omega
        · subst hl
          have := Nat.eq_of_mul_eq_mul_right (Nat.two_pow_pos _) h
          exact ⟨rfl, by omega⟩
        · have := (hstep x' x f' f hl f2).resolve_right hx'
          omega
  have hs : (2 ^ 63 ≤ b.toNat) ↔ (2 ^ 63 ≤ b'.toNat) := by simpa [neg] using h'
  have l1 := b.toNat_lt
  have l2 := b'.toNat_lt
  unfold expo frac at e1
  apply UInt64.toNat_inj.mp
  omega

/-- The pattern of an integer other than 0 is unique. -/
theorem isInt_unique (b b' : UInt64) (i : Int) (h0 : i ≠ 0) (h : Spec.F64.IsInt b i) (h' : Spec.F64.IsInt b' i) : b = b' := by
  obtain ⟨_, h1⟩ := h
  obtain ⟨_, h2⟩ := h'
  have hz : (0 : Int) < 2 ^ 1074 := by rw [cast_unit]; exact Int.natCast_pos.mpr (Nat.two_pow_pos _)
  have hne : i * 2 ^ 1074 ≠ 0 := by
    intro h
    rcases Int.mul_eq_zero.mp h with h | h <;> omega
  generalize i * 2 ^ 1074 = v at *
  apply mag_inj
  · cases hb : neg b <;> cases hb' : neg b' <;> rw [hb] at h1 <;> rw [hb'] at h2 <;> simp only [if_true, Bool.false_eq_true, if_false] at h1 h2 <;> omega
  · cases hb : neg b <;> cases hb' : neg b' <;> rw [hb] at h1 <;> rw [hb'] at h2 <;> simp only [if_true, Bool.false_eq_true, if_false] at h1 h2 <;> first | rfl | omega

/-- Seconds of whatever pattern has the value `i`. -/
theorem seconds_isInt (f : UInt64) (i : Int) (hf : Spec.F64.IsInt f i) (h : i.natAbs ≤ 8640000000000000) :
    toInt64 (div1000 f) = Int.tdiv i 1000 := by
  by_cases h0 : i = 0
  · subst h0
    have hm : mag f = 0 := by
      have := hf.2
      rw [Int.zero_mul] at this
      cases hb : neg f <;> rw [hb] at this <;> simp only [if_true, Bool.false_eq_true, if_false] at this <;> omega
    cases hb : neg f
    · rw [mag_inj f 0 (by rw [hm]; decide +kernel) (by rw [hb]; decide +kernel)]
      decide +kernel
    · rw [mag_inj f 0x8000000000000000 (by rw [hm]; decide +kernel) (by rw [hb]; decide +kernel)]
      decide +kernel
  · rw [isInt_unique f (ofInt i) i h0 hf (ofInt_isInt i (by omega))]
    exact seconds i h

/-- The magnitude of a large integer. -/
theorem large_parts (f : UInt64) (n : Nat) (h1 : expo f ≠ 2047) (hm : mag f = n * 2 ^ 1074) (hn : 2 ^ 63 ≤ n) :
    div1000 f = ofRatio (neg f) n 1000 ∧ n < 1000 * 2 ^ 1023 := by
  have hlt := f.toNat_lt
  have he : f.toNat % 2 ^ 63 / 2 ^ 52 = expo f := by unfold expo; omega
  have hf : f.toNat % 2 ^ 63 % 2 ^ 52 = frac f := by unfold frac; omega
  have hx : expo f < 2047 := by
    have : expo f < 2 ^ 11 := Nat.mod_lt _ (by omega)
    omega
  have hfr : frac f < 2 ^ 52 := Nat.mod_lt _ (by omega)
  have hfin : finite f = true := by unfold finite; rw [he]; simpa using h1
  have hge : 1075 ≤ expo f := by
    apply Decidable.byContradiction
    intro hc
    have hmag : mag f ≤ 2 ^ 53 * 2 ^ 1074 := by
      unfold mag
      split
      · have : (1 : Nat) ≤ 2 ^ 1074 := Nat.one_le_two_pow
        generalize (2 : Nat) ^ 1074 = z at *
        omega
      · exact Nat.mul_le_mul (by omega) (Nat.pow_le_pow_right (by omega) (by omega))
    rw [hm] at hmag
    have := Nat.le_of_mul_le_mul_right hmag (Nat.two_pow_pos _)
    omega
  have hv : n = (frac f + 2 ^ 52) * 2 ^ (expo f - 1075) := by
    have : mag f = (frac f + 2 ^ 52) * 2 ^ (expo f - 1075) * 2 ^ 1074 := by
      unfold mag
      rw [if_neg (by omega), Nat.mul_assoc, ← Nat.pow_add, Nat.add_comm (frac f), show expo f - 1075 + 1074 = expo f - 1 by omega]
    rw [this] at hm
    exact (Nat.eq_of_mul_eq_mul_right (Nat.two_pow_pos _) hm).symm
  constructor
  · unfold div1000
    rw [if_pos hfin]
    have hparts : parts f = (neg f, frac f + 2 ^ 52, (expo f : Int) - 1075) := by
      unfold parts
      simp only [he, hf, if_neg (show ¬ expo f = 0 by omega)]
      rfl
    rw [hparts]
    simp only
    rw [if_pos (by omega), show ((expo f : Int) - 1075).toNat = expo f - 1075 by omega, ← hv]
  · have e1 : n < 2 ^ 53 * 2 ^ 971 := by
      rw [hv]
      exact Nat.lt_of_lt_of_le (Nat.mul_lt_mul_of_pos_right (show frac f + 2 ^ 52 < 2 ^ 53 by omega) (Nat.two_pow_pos _))
        (Nat.mul_le_mul_left _ (Nat.pow_le_pow_right (by omega) (by omega)))
    rw [← Nat.pow_add, show 53 + 971 = 1023 + 1 from rfl, Nat.pow_succ] at e1
    generalize (2 : Nat) ^ 1023 = z at *
    omega

/-- Seconds of a number that is too large. -/
theorem seconds_remote (f : UInt64) (i : Int) (hf : Spec.F64.IsInt f i) (h : 2 ^ 63 * 1000 ≤ i.natAbs) :
    toInt64 (div1000 f) = -(2 ^ 63) := by
  have hm : mag f = i.natAbs * 2 ^ 1074 := by
    have := hf.2
    have hz : (2 : Int) ^ 1074 = ((2 ^ 1074 : Nat) : Int) := cast_unit
    rw [hz] at this
    have e : (mag f : Int).natAbs = (i * ((2 ^ 1074 : Nat) : Int)).natAbs := by
      rw [← this]
      cases neg f <;> simp
    rw [Int.natAbs_mul, Int.natAbs_natCast, Int.natAbs_natCast] at e
    exact e
  obtain ⟨hd, hb⟩ := large_parts f i.natAbs hf.1 hm (by omega)
  rw [hd]
  have hnear := ofRatio_nearest (neg f) i.natAbs 1000 (by omega) hb
  have hneg := ofRatio_neg (neg f) i.natAbs 1000 (by omega) (by omega) hb
  refine toInt64_remote _ hnear.finite ?_
  obtain ⟨b', r1, r2, r3⟩ := representable (neg f) 1137 1 (by omega) (by omega)
  have c := hnear.near b' r1
  rw [off_same _ _ hneg, off_same b' _ r3, r2] at c
  have hz : 1 * (2 : Nat) ^ 1137 = 2 ^ 63 * 2 ^ 1074 := by rw [Nat.one_mul, ← Nat.pow_add]
  rw [hz] at c
  have g := near_low _ _ _ c (by rw [Nat.mul_right_comm]; exact Nat.mul_le_mul_right _ h)
  exact (Nat.le_div_iff_mul_le (Nat.two_pow_pos _)).2 (Nat.le_of_mul_le_mul_right g (by omega))

/-- `float64(i)` for every 64-bit integer (and beyond). -/
theorem ofInt_nearest (i : Int) (h : i.natAbs < 2 ^ 1023) : Nearest (ofInt i) i 1 := by
  have := ofRatio_nearest (decide (i < 0)) i.natAbs 1 (by omega) (by omega)
  have hi : (if decide (i < 0) = true then -(i.natAbs : Int) else i.natAbs) = i := by
    by_cases h0 : i < 0 <;> simp [h0] <;> omega
  rwa [hi] at this

end Verif.F64
