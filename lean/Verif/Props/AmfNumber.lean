import Verif.Props.Amf0
import Verif.Props.Amf3
import Verif.Lemmas.Float64Round
/-!
# Properties C139 and C140: integers of every size, and dates with milliseconds

The meaning of float64 patterns and rounding to nearest are specified in `Verif/Spec/Float64.lean`.
-/
namespace Verif.Props
open Verif Verif.Amf Verif.Spec.Amf

/-! ## C139 -/

theorem fits64 (i : Int) (h : i.natAbs < 2 ^ 64) : i.natAbs < 2 ^ 1023 :=
  Nat.lt_of_lt_of_le h (Nat.pow_le_pow_right (by omega) (by omega))

section
open Verif.Spec.Amf0

/-- C139, AMF0: every integer is sent as the number nearest to it, ties to even, and that number is read back. -/
theorem C139_amf0_integers (i : Int) (h : i.natAbs < 2 ^ 64) (is64 : Bool) (v : Val)
    (hv : v = .int is64 i ∨ (0 ≤ i ∧ v = .uint is64 i.toNat)) (s : St) (rest : Bytes) (hc : s.Contig)
    (hd : s.data = amf0Bytes v ++ rest) :
    ∃ f s', amf0Bytes v = 0 :: be64 f ∧ Amf0.decode s = (.ok (.f64 f), s') ∧ s'.data = rest ∧ Spec.F64.Nearest f i 1 := by
  have hn : numbers v = .f64 (F64.ofInt i) ∧ Encodable v ∧ wire v = 0 :: be64 (F64.ofInt i) ∧ endsEmpty v = false := by
    rcases hv with rfl | ⟨h0, rfl⟩
    · exact ⟨rfl, trivial, rfl, rfl⟩
    · have : ((i.toNat : Nat) : Int) = i := Int.toNat_of_nonneg h0
      simp only [numbers, wire, Encodable, number, this, endsEmpty, and_self]
  obtain ⟨s', h1, h2⟩ := C17_amf0_round_trip_numbers v hn.2.1 s rest hc hd (by simp [hn.2.2.2])
  exact ⟨F64.ofInt i, s', (amf0Bytes_wire v hn.2.1).trans hn.2.2.1, by rw [h1, hn.1], h2, F64.ofInt_nearest i (fits64 i h)⟩

/-- The largest uint64, sent as 2^64; and 2^53 + 1, half way between two numbers. -/
example : ∃ f s', amf0Bytes (.uint true (2 ^ 64 - 1)) = 0 :: be64 f ∧
    Amf0.decode (St.buffer (amf0Bytes (.uint true (2 ^ 64 - 1)) ++ [])) = (.ok (.f64 f), s') ∧ s'.data = [] ∧
    Spec.F64.Nearest f (2 ^ 64 - 1) 1 :=
  C139_amf0_integers (2 ^ 64 - 1) (by decide) true (.uint true (2 ^ 64 - 1)) (.inr ⟨by decide, by congr 1⟩) _ [] (fun _ => Nat.le_refl _) rfl
example : F64.ofInt (2 ^ 64 - 1) = 0x43F0000000000000 ∧ F64.ofInt (2 ^ 53 + 1) = F64.ofInt (2 ^ 53) ∧
    F64.ofInt (2 ^ 53 + 3) = F64.ofInt (2 ^ 53 + 4) := by decide +kernel

end

section
open Verif.Amf3 Verif.Spec.Amf3

/-- C139, AMF3: every integer of a 64-bit kind, and every other one outside the range of AMF3 integers, is sent as the number
nearest to it, ties to even, and that number is read back. -/
theorem C139_amf3_integers (H : Handlers) (i : Int) (h : i.natAbs < 2 ^ 64) (is64 : Bool)
    (hb : is64 = true ∨ i < -536870911 ∨ 536870911 ≤ i) (v : Val)
    (hv : v = .int is64 i ∨ (0 ≤ i ∧ v = .uint is64 i.toNat)) (s : St) (rest : Bytes) (hc : s.Contig)
    (hd : s.data = amf3Bytes v ++ rest) :
    ∃ f s', amf3Bytes v = 5 :: be64 f ∧ Amf3.decode H s = (.ok (.f64 f), s') ∧ s'.data = rest ∧ Spec.F64.Nearest f i 1 := by
  have he : Encodable v := by
    rcases hv with rfl | ⟨h0, rfl⟩ <;> cases is64 <;> simp [Encodable]
    simp only [Bool.false_eq_true, false_or] at hb
    omega
  have hw : wire v = 5 :: be64 (F64.ofInt i) := by
    rcases hv with rfl | ⟨h0, rfl⟩
    · cases is64
      · simp only [Bool.false_eq_true, false_or] at hb
        rw [wire, if_neg (by omega)]
      · rw [wire]
    · have ht : ((i.toNat : Nat) : Int) = i := Int.toNat_of_nonneg h0
      cases is64
      · simp only [Bool.false_eq_true, false_or] at hb
        rw [wire, if_neg (by omega), ht]
      · rw [wire, ht]
  rw [amf3Bytes_wire v he, hw] at hd ⊢
  obtain ⟨s', h1, h2, _⟩ := (codec_double (rj := false) H s.data.length (F64.ofInt i)).parse s rest hc hd (by simp)
  exact ⟨F64.ofInt i, s', rfl, h1, h2, F64.ofInt_nearest i (fits64 i h)⟩

example : ∃ f s', amf3Bytes (.int false (-(2 ^ 63))) = 5 :: be64 f ∧
    Amf3.decode (fun _ => none) (St.reader (amf3Bytes (.int false (-(2 ^ 63))) ++ [1])) = (.ok (.f64 f), s') ∧ s'.data = [1] ∧
    Spec.F64.Nearest f (-(2 ^ 63)) 1 :=
  C139_amf3_integers (fun _ => none) (-(2 ^ 63)) (by decide) false (.inr (.inl (by decide))) _ (.inl rfl) _ [1] (fun _ => Nat.le_refl _) rfl

/-! ## C140 -/

/-- C140 (partial): a date sent by another producer, `n` milliseconds from 1970 on, is decoded to the second it falls in; a
date at a whole second, also before 1970, is decoded exactly.  This is for all dates that ECMAScript has, up to 100 million days from
1970.  Missing: the milliseconds (`C140_amf3_dates_refuted`). -/
theorem C140_amf3_dates_partial (H : Handlers) (f : UInt64) (n : Int) (hf : Spec.F64.IsInt f n) (hn : n.natAbs ≤ 8640000000000000)
    (h : 0 ≤ n ∨ n % 1000 = 0) (s : St) (rest : Bytes) (hc : s.Contig) (hd : s.data = [8, 1] ++ be64 f ++ rest) :
    ∃ sec s', Amf3.decode H s = (.ok (.time sec), s') ∧ s'.data = rest ∧ sec * 1000 ≤ n ∧ n < (sec + 1) * 1000 := by
  obtain ⟨s', h1, h2, _⟩ := decodeDate_lit H f s rest hc (by simpa [u29] using hd)
  rw [F64.seconds_isInt f n hf hn] at h1
  refine ⟨_, s', h1, h2, ?_⟩
  have ht : Int.tdiv n 1000 = n / 1000 := by
    rcases h with h | h
    · exact Int.tdiv_eq_ediv_of_nonneg h
    · exact Int.tdiv_eq_ediv_of_dvd (Int.dvd_of_emod_eq_zero h)
  rw [ht]
  omega

example : ∃ sec s', Amf3.decode (fun _ => none) (St.reader ([8, 1] ++ be64 (F64.ofInt 1700000000999) ++ [])) = (.ok (.time sec), s') ∧
    s'.data = [] ∧ sec * 1000 ≤ 1700000000999 ∧ 1700000000999 < (sec + 1) * 1000 :=
  C140_amf3_dates_partial (fun _ => none) _ 1700000000999 (F64.ofInt_isInt _ (by decide)) (by decide) (.inl (by decide)) _ []
    (fun _ => Nat.le_refl _) rfl

/-- C140 fails for every date that is not at a whole second: what is decoded is the second before it or, before 1970, the second
after it. -/
theorem C140_amf3_dates_refuted (H : Handlers) (f : UInt64) (n : Int) (hf : Spec.F64.IsInt f n) (hn : n.natAbs ≤ 8640000000000000)
    (h : n % 1000 ≠ 0) (s : St) (rest : Bytes) (hc : s.Contig) (hd : s.data = [8, 1] ++ be64 f ++ rest) :
    ∃ sec s', Amf3.decode H s = (.ok (.time sec), s') ∧ s'.data = rest ∧ sec * 1000 ≠ n ∧
      (0 < n → sec * 1000 < n) ∧ (n < 0 → n < sec * 1000) := by
  obtain ⟨s', h1, h2, _⟩ := decodeDate_lit H f s rest hc (by simpa [u29] using hd)
  rw [F64.seconds_isInt f n hf hn] at h1
  refine ⟨_, s', h1, h2, ?_⟩
  by_cases h0 : 0 ≤ n
  · rw [Int.tdiv_eq_ediv_of_nonneg h0]
    omega
  · obtain ⟨k, rfl⟩ : ∃ k : Nat, n = -(k : Int) := ⟨n.natAbs, by omega⟩
    rw [Int.neg_tdiv, Int.tdiv_eq_ediv_of_nonneg (by omega)]
    omega

/-- Half a second before 1970 is decoded as 1970. -/
example : ∃ sec s', Amf3.decode (fun _ => none) (St.reader ([8, 1] ++ be64 (F64.ofInt (-500)) ++ [])) = (.ok (.time sec), s') ∧
    s'.data = [] ∧ sec * 1000 ≠ -500 ∧ ((0 : Int) < -500 → sec * 1000 < -500) ∧ ((-500 : Int) < 0 → -500 < sec * 1000) :=
  C140_amf3_dates_refuted (fun _ => none) _ (-500) (F64.ofInt_isInt _ (by decide)) (by decide) (by decide) _ []
    (fun _ => Nat.le_refl _) rfl

end
end Verif.Props
