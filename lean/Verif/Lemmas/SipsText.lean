import Verif.Lemmas.Str
import Verif.Spec.Sips
/-!
# More on the string functions: `Trim`, `SplitN`, `Itoa`, `Atoi`, letter case
-/
namespace Verif.Str
open Verif.Spec.Sips

/-! ## Trim -/

theorem dropWhile_split {α} (p : α → Bool) (s : List α) :
    ∃ a, s = a ++ s.dropWhile p ∧ ∀ b ∈ a, p b = true := by
  refine ⟨s.takeWhile p, (List.takeWhile_append_dropWhile).symm, ?_⟩
  have h := List.all_takeWhile (p := p) (l := s)
  rw [List.all_eq_true] at h
  exact h

theorem dropWhile_all {α} {p : α → Bool} {s : List α} (h : ∀ b ∈ s, p b = true) : s.dropWhile p = [] := by
  induction s with
  | nil => rfl
  | cons x s ih => rw [List.dropWhile_cons, if_pos (h x (by simp)), ih fun b hb => h b (by simp [hb])]

theorem trim_split (cut : UInt8 → Bool) (s : Bytes) :
    ∃ a b, s = a ++ trim cut s ++ b ∧ (∀ c ∈ a, cut c = true) ∧ ∀ c ∈ b, cut c = true := by
  obtain ⟨a, h1, h2⟩ := dropWhile_split cut s
  obtain ⟨b, h3, h4⟩ := dropWhile_split cut (s.dropWhile cut).reverse
  refine ⟨a, b.reverse, ?_, h2, fun c hc => h4 c (List.mem_reverse.1 hc)⟩
  have := congrArg List.reverse h3
  rw [List.reverse_reverse, List.reverse_append] at this
  rw [trim, List.append_assoc, ← this, ← h1]

theorem trim_nil_of_all {cut : UInt8 → Bool} {s : Bytes} (h : ∀ b ∈ s, cut b = true) : trim cut s = [] := by
  rw [trim, dropWhile_all h]
  rfl

theorem trim_eq_nil_iff (cut : UInt8 → Bool) (s : Bytes) : trim cut s = [] ↔ ∀ b ∈ s, cut b = true := by
  refine ⟨fun h => ?_, trim_nil_of_all⟩
  obtain ⟨a, b, h1, h2, h3⟩ := trim_split cut s
  rw [h, List.append_nil] at h1
  intro c hc
  rw [h1, List.mem_append] at hc
  rcases hc with hc | hc
  · exact h2 c hc
  · exact h3 c hc

theorem dropWhile_append_of_all {α} {p : α → Bool} {a : List α} (h : ∀ b ∈ a, p b = true) (s : List α) :
    (a ++ s).dropWhile p = s.dropWhile p := by
  induction a with
  | nil => rfl
  | cons x a ih =>
    rw [List.cons_append, List.dropWhile_cons, if_pos (h x (by simp)), ih fun b hb => h b (by simp [hb])]

theorem dropWhile_keep {α} {p : α → Bool} {s : List α} (h : ∀ b, s.head? = some b → p b = false) : s.dropWhile p = s := by
  cases s with
  | nil => rfl
  | cons x s => rw [List.dropWhile_cons, if_neg (by simp [h x rfl])]

/-- Cut characters around a text that neither begins nor ends with one. -/
theorem trim_mid {cut : UInt8 → Bool} {a s b : Bytes} (ha : ∀ c ∈ a, cut c = true) (hb : ∀ c ∈ b, cut c = true)
    (h1 : ∀ c, s.head? = some c → cut c = false) (h2 : ∀ c, s.getLast? = some c → cut c = false) :
    trim cut (a ++ s ++ b) = s := by
  rw [trim, List.append_assoc, dropWhile_append_of_all ha]
  cases s with
  | nil =>
    rw [List.nil_append, dropWhile_all hb]
    rfl
  | cons x s =>
    rw [dropWhile_keep (s := x :: s ++ b) (by simpa using h1), List.reverse_append,
      dropWhile_append_of_all (fun c hc => hb c (List.mem_reverse.1 hc)), dropWhile_keep, List.reverse_reverse]
    intro c hc
    rw [List.head?_reverse] at hc
    exact h2 c hc

theorem trim_keep {cut : UInt8 → Bool} {s : Bytes} (h1 : ∀ c, s.head? = some c → cut c = false)
    (h2 : ∀ c, s.getLast? = some c → cut c = false) : trim cut s = s := by
  have := trim_mid (cut := cut) (a := []) (b := []) (s := s) (by simp) (by simp) h1 h2
  simpa using this

/-! ## SplitN -/

theorem splitN_cons {sep : UInt8} {a : Bytes} (h : sep ∉ a) (n : Nat) (r : Bytes) :
    splitN sep (n + 1) (a ++ sep :: r) = a :: splitN sep n r := by
  rw [splitN, index_append h, if_neg (by omega)]
  congr 1
  · simp
  · congr 1
    rw [Int.toNat_natCast, List.drop_append, List.drop_eq_nil_of_le (by omega)]
    simp

theorem splitN_two {sep : UInt8} {a b : Bytes} (ha : sep ∉ a) (hb : sep ∉ b) (c : Bytes) :
    splitN sep 2 (a ++ sep :: (b ++ sep :: c)) = [a, b, c] := by
  rw [splitN_cons ha, splitN_cons hb, splitN]

theorem splitN_join (sep : UInt8) : ∀ (n : Nat) (s : Bytes), ∃ a l, splitN sep n s = a :: l ∧
    s = a ++ (l.map (fun x => sep :: x)).flatten := by
  intro n
  induction n with
  | zero => intro s; exact ⟨s, [], rfl, by simp⟩
  | succ n ih =>
    intro s
    by_cases h : sep ∈ s
    · obtain ⟨x, y, hxy, hx, -⟩ := index_split h
      subst hxy
      rw [splitN_cons hx]
      obtain ⟨a, l, h1, h2⟩ := ih y
      refine ⟨x, a :: l, by rw [h1], ?_⟩
      simp [← h2]
    · refine ⟨s, [], ?_, by simp⟩
      rw [splitN, index_not_mem h, if_pos (by omega)]

theorem splitN_three {sep : UInt8} {s a b c : Bytes} (h : splitN sep 2 s = [a, b, c]) :
    s = a ++ sep :: (b ++ sep :: c) := by
  obtain ⟨x, l, h1, h2⟩ := splitN_join sep 2 s
  rw [h] at h1
  obtain ⟨rfl, rfl⟩ := List.cons.inj h1
  simpa using h2

/-! ## Itoa and Atoi -/

theorem digitsAux_spec : ∀ (fuel n : Nat), n < fuel → IsDecimal (digitsAux fuel n) n := by
  intro fuel
  induction fuel with
  | zero => intro n h; omega
  | succ fuel ih =>
    intro n h
    have digit : ∀ d : Nat, d < 10 → (UInt8.ofNat (48 + d)).toNat = 48 + d := by
      intro d hd; simp [UInt8.toNat_ofNat']; omega
    rw [digitsAux]
    by_cases hn : n < 10
    · rw [if_pos hn]
      have hd := digit n hn
      refine ⟨by simp, ?_, by simp, ?_⟩
      · intro b hb
        rw [List.mem_singleton] at hb
        subst hb
        rw [UInt8.le_iff_toNat_le, UInt8.le_iff_toNat_le, hd]
        constructor <;> simp <;> omega
      · simp only [decVal, List.foldl_cons, List.foldl_nil, hd]; omega
    · rw [if_neg hn]
      obtain ⟨h1, h2, h3, h4⟩ := ih (n / 10) (by omega)
      have hd := digit (n % 10) (by omega)
      refine ⟨by simp, ?_, ?_, ?_⟩
      · intro b hb
        rw [List.mem_append, List.mem_singleton] at hb
        rcases hb with hb | rfl
        · exact h2 b hb
        · rw [UInt8.le_iff_toNat_le, UInt8.le_iff_toNat_le, hd]
          constructor <;> simp <;> omega
      · intro hh
        obtain ⟨x, l, hx⟩ := List.exists_cons_of_ne_nil h1
        rw [hx] at hh h3 h4
        have hx48 : x = 48 := by simpa using hh
        have hl := h3 (by simp [hx48])
        rw [hl] at h4
        simp [decVal] at h4
        omega
      · rw [decVal, List.foldl_append, show (digitsAux fuel (n / 10)).foldl (fun a b => a * 10 + (b.toNat - 48)) 0 = n / 10 from h4]
        simp only [List.foldl_cons, List.foldl_nil, hd]
        omega

theorem itoa_nat (n : Nat) : IsDecimal (itoa n) n := by
  rw [itoa, if_neg (by omega)]
  simpa using digitsAux_spec (n + 1) n (by omega)

theorem decimal_eq (s : Bytes) : ∀ acc, (∀ b ∈ s, 48 ≤ b ∧ b ≤ 57) →
    decimal s acc = some (s.foldl (fun a b => a * 10 + (b.toNat - 48)) acc) := by
  induction s with
  | nil => intro acc _; rfl
  | cons b s ih =>
    intro acc h
    rw [decimal, if_pos (h b (by simp)), ih _ fun c hc => h c (by simp [hc])]
    rfl

/-- `Atoi` reads decimal numbers in the range of `int`. -/
theorem atoi_decimal {s : Bytes} {n : Nat} (h : IsDecimal s n) (hn : n < 2 ^ 63) : atoi s = .ok n := by
  obtain ⟨h1, h2, -, h4⟩ := h
  obtain ⟨x, l, rfl⟩ := List.exists_cons_of_ne_nil h1
  have hx := h2 x (by simp)
  have n1 : x ≠ 45 := by rintro rfl; simp at hx
  have n2 : x ≠ 43 := by rintro rfl; simp at hx
  rw [atoi]
  simp only [List.head?_cons, Option.some.injEq, n1, n2, or_self, if_false, decide_false]
  rw [if_neg h1, decimal_eq _ _ h2]
  simp only [show (x :: l).foldl (fun a b => a * 10 + (b.toNat - 48)) 0 = n from h4]
  simp [hn]

theorem atoi_neg {s : Bytes} {n : Nat} (h : IsDecimal s n) (hn : n ≤ 2 ^ 63) : atoi (45 :: s) = .ok (-(n : Int)) := by
  obtain ⟨h1, h2, -, h4⟩ := h
  rw [atoi]
  simp only [List.head?_cons, Option.some.injEq, List.drop_one, List.tail_cons, true_or, if_true]
  rw [if_neg h1, decimal_eq _ _ h2]
  simp only [show s.foldl (fun a b => a * 10 + (b.toNat - 48)) 0 = n from h4]
  simp [hn]

/-- `Atoi` inverts `Itoa` on every `int`. -/
theorem atoi_itoa {i : Int} (h1 : -2 ^ 63 ≤ i) (h2 : i < 2 ^ 63) : atoi (itoa i) = .ok i := by
  by_cases hi : i < 0
  · rw [itoa, if_pos hi]
    have := atoi_neg (digitsAux_spec (i.natAbs + 1) i.natAbs (by omega)) (by omega)
    rw [this]
    congr 1
    omega
  · rw [itoa, if_neg hi]
    have := atoi_decimal (digitsAux_spec (i.natAbs + 1) i.natAbs (by omega)) (by omega)
    rw [this]
    congr 1
    omega

theorem itoa_chars (i : Int) : ∀ b ∈ itoa i, b = 45 ∨ (48 ≤ b ∧ b ≤ 57) := by
  intro b hb
  rw [itoa] at hb
  have h := (digitsAux_spec (i.natAbs + 1) i.natAbs (by omega)).2.1
  split at hb
  · rw [List.mem_cons] at hb
    rcases hb with rfl | hb
    · left; rfl
    · right; exact h b hb
  · right; exact h b hb

/-- `Atoi` returns a number or an error. -/
theorem atoi_total (s : Bytes) : (∃ i, atoi s = .ok i) ∨ atoi s = .err .other := by
  rw [atoi]
  generalize (if s.head? = some 45 ∨ s.head? = some 43 then s.drop 1 else s) = d
  split
  · right; rfl
  · cases decimal d 0 with
    | none => right; rfl
    | some n =>
      by_cases h : s.head? = some 45
      · by_cases hn : n ≤ 2 ^ 63
        · left; exact ⟨-n, by simp [h, hn]⟩
        · right; simp [h, hn]
      · by_cases hn : n < 2 ^ 63
        · left; exact ⟨n, by simp [h, hn]⟩
        · right; simp [h, hn]

/-! ## Letter case -/

theorem lowerByte_eq (b : UInt8) : lowerByte b = lowerAscii b := by
  have : ∀ n : Fin 256, lowerByte (UInt8.ofNat n.val) = lowerAscii (UInt8.ofNat n.val) := by decide +kernel
  have h := this ⟨b.toNat, b.toNat_lt⟩
  simpa using h

theorem toLower_ascii (U : Unicode) {s : Bytes} (h : ∀ b ∈ s, b < 0x80) : toLower U s = s.map lowerAscii := by
  rw [toLower, if_pos ((isAscii_iff s).2 h)]
  exact List.map_congr_left fun b _ => lowerByte_eq b

theorem toLower_keep (U : Unicode) {s : Bytes} (h : ∀ b ∈ s, b < 0x80 ∧ ¬ (0x41 ≤ b ∧ b ≤ 0x5a)) : toLower U s = s := by
  rw [toLower_ascii U fun b hb => (h b hb).1]
  conv => rhs; rw [← List.map_id s]
  refine List.map_congr_left fun b hb => ?_
  rw [lowerAscii, if_neg (h b hb).2]
  rfl

end Verif.Str
