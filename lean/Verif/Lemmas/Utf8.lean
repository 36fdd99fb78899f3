import Verif.Lemmas.Str
import Verif.Spec.Utf8
/-! # Lemmas about UTF-8 text -/
namespace Verif.Str
open Verif.Spec

theorem u8 {n : Nat} (h : n < 256) : (UInt8.ofNat n).toNat = n := by simp; omega

theorem u8_lt {n m : Nat} (hn : n < 256) (hm : m < 256) : UInt8.ofNat n < UInt8.ofNat m ↔ n < m := by
  rw [UInt8.lt_iff_toNat_lt, u8 hn, u8 hm]

theorem u8_le {n m : Nat} (hn : n < 256) (hm : m < 256) : UInt8.ofNat n ≤ UInt8.ofNat m ↔ n ≤ m := by
  rw [UInt8.le_iff_toNat_le, u8 hn, u8 hm]

theorem u8_inRange {n l h : Nat} (hn : n < 256) (hl : l < 256) (hh : h < 256) :
    inRange (UInt8.ofNat n) (UInt8.ofNat l) (UInt8.ofNat h) = (decide (l ≤ n) && decide (n ≤ h)) := by
  simp only [inRange, u8_le hn hh, u8_le hl hn]

theorem leadInfo_nat (n : Nat) (hn : n < 256) : leadInfo (UInt8.ofNat n) =
    if 0xC2 ≤ n ∧ n ≤ 0xDF then some (2, 0x80, 0xBF) else if n = 0xE0 then some (3, 0xA0, 0xBF) else if n = 0xED then some (3, 0x80, 0x9F)
    else if 0xE1 ≤ n ∧ n ≤ 0xEF then some (3, 0x80, 0xBF) else if n = 0xF0 then some (4, 0x90, 0xBF)
    else if 0xF1 ≤ n ∧ n ≤ 0xF3 then some (4, 0x80, 0xBF) else if n = 0xF4 then some (4, 0x80, 0x8F) else none := by
  have : ∀ n : Fin 256, leadInfo (UInt8.ofNat n.val) =
    if 0xC2 ≤ n.val ∧ n.val ≤ 0xDF then some (2, 0x80, 0xBF) else if n.val = 0xE0 then some (3, 0xA0, 0xBF) else if n.val = 0xED then some (3, 0x80, 0x9F)
    else if 0xE1 ≤ n.val ∧ n.val ≤ 0xEF then some (3, 0x80, 0xBF) else if n.val = 0xF0 then some (4, 0x90, 0xBF)
    else if 0xF1 ≤ n.val ∧ n.val ≤ 0xF3 then some (4, 0x80, 0xBF) else if n.val = 0xF4 then some (4, 0x80, 0x8F) else none := by decide +kernel
  exact this ⟨n, hn⟩

theorem char_valid (c : Char) : c.toNat < 0xd800 ∨ (0xdfff < c.toNat ∧ c.toNat < 0x110000) := c.valid

/-- The encoding of a character, by the number of bytes. -/
theorem enc_cases (c : Char) :
    (c.toNat < 0x80 ∧ String.utf8EncodeChar c = [UInt8.ofNat c.toNat]) ∨
    (0x80 ≤ c.toNat ∧ c.toNat < 0x800 ∧ String.utf8EncodeChar c = [UInt8.ofNat (0xC0 + c.toNat / 64), UInt8.ofNat (0x80 + c.toNat % 64)]) ∨
    (0x800 ≤ c.toNat ∧ c.toNat < 0x10000 ∧ String.utf8EncodeChar c =
      [UInt8.ofNat (0xE0 + c.toNat / 4096), UInt8.ofNat (0x80 + c.toNat / 64 % 64), UInt8.ofNat (0x80 + c.toNat % 64)]) ∨
    (0x10000 ≤ c.toNat ∧ String.utf8EncodeChar c = [UInt8.ofNat (0xF0 + c.toNat / 262144), UInt8.ofNat (0x80 + c.toNat / 4096 % 64),
      UInt8.ofNat (0x80 + c.toNat / 64 % 64), UInt8.ofNat (0x80 + c.toNat % 64)]) := by
  have hv := char_valid c
  have h0 : c.val.toNat = c.toNat := rfl
  simp only [String.utf8EncodeChar, h0]
  generalize c.toNat = v at *
  by_cases h1 : v ≤ 0x7f
  · left; simp only [h1, if_true]; exact ⟨by omega, trivial⟩
  right
  by_cases h2 : v ≤ 0x7ff
  · left; simp only [h1, h2, if_true, if_false]
    refine ⟨by omega, by omega, ?_⟩
    rw [show v / 64 % 0x20 + 0xc0 = 0xC0 + v / 64 by omega, show v % 0x40 + 0x80 = 0x80 + v % 64 by omega]
  right
  by_cases h3 : v ≤ 0xffff
  · left; simp only [h1, h2, h3, if_true, if_false]
    refine ⟨by omega, by omega, ?_⟩
    rw [show v / 4096 % 0x10 + 0xe0 = 0xE0 + v / 4096 by omega, show v / 64 % 0x40 + 0x80 = 0x80 + v / 64 % 64 by omega,
      show v % 0x40 + 0x80 = 0x80 + v % 64 by omega]
  · right; simp only [h1, h2, h3, if_false]
    refine ⟨by omega, ?_⟩
    rw [show v / 262144 % 0x08 + 0xf0 = 0xF0 + v / 262144 by omega, show v / 4096 % 0x40 + 0x80 = 0x80 + v / 4096 % 64 by omega,
      show v / 64 % 0x40 + 0x80 = 0x80 + v / 64 % 64 by omega, show v % 0x40 + 0x80 = 0x80 + v % 64 by omega]

theorem encodeRune_char (c : Char) : encodeRune c.toNat = String.utf8EncodeChar c := by
  have hv := char_valid c
  have h : ¬ (c.toNat > 0x10FFFF ∨ (0xD800 ≤ c.toNat ∧ c.toNat ≤ 0xDFFF)) := by omega
  simp only [encodeRune, if_neg h]
  rcases enc_cases c with ⟨h1, e⟩ | ⟨h1, h2, e⟩ | ⟨h1, h2, e⟩ | ⟨h1, e⟩ <;> rw [e]
  · rw [if_pos h1]
  · rw [if_neg (by omega), if_pos h2]
  · rw [if_neg (by omega), if_neg (by omega), if_pos h2]
  · rw [if_neg (by omega), if_neg (by omega), if_neg (by omega)]

theorem decodeRune_char (c : Char) (s : Bytes) : decodeRune (String.utf8EncodeChar c ++ s) = (c.toNat, (String.utf8EncodeChar c).length) := by
  have hv := char_valid c
  rcases enc_cases c with ⟨h1, e⟩ | ⟨h1, h2, e⟩ | ⟨h1, h2, e⟩ | ⟨h1, e⟩ <;> rw [e] <;> generalize c.toNat = v at *
  · have : UInt8.ofNat v < 0x80 := (u8_lt (m := 0x80) (by omega) (by decide)).2 h1
    simp only [decodeRune, List.cons_append, this, if_true, u8 (show v < 256 by omega), List.length_singleton]
  · have a0 : ¬ UInt8.ofNat (0xC0 + v / 64) < 0x80 := fun h => by
      have := (u8_lt (m := 0x80) (by omega) (by decide)).1 h
      omega
    simp only [decodeRune, List.cons_append, if_neg a0, leadInfo_nat _ (show 0xC0 + v / 64 < 256 by omega)]
    rw [if_pos (by omega)]
    simp only [show inRange (UInt8.ofNat (0x80 + v % 64)) 0x80 0xBF = true from by
      rw [show (0x80 : UInt8) = UInt8.ofNat 0x80 from rfl, show (0xBF : UInt8) = UInt8.ofNat 0xBF from rfl, u8_inRange (by omega) (by decide) (by decide)]
      simp; omega, if_true, List.length_cons, List.length_nil, Prod.mk.injEq, and_true, u8 (show 0xC0 + v / 64 < 256 by omega), u8 (show 0x80 + v % 64 < 256 by omega)]
    omega
  · have a0 : ¬ UInt8.ofNat (0xE0 + v / 4096) < 0x80 := fun h => by
      have := (u8_lt (m := 0x80) (by omega) (by decide)).1 h
      omega
    have b2 : inRange (UInt8.ofNat (0x80 + v % 64)) 0x80 0xBF = true := by
      rw [show (0x80 : UInt8) = UInt8.ofNat 0x80 from rfl, show (0xBF : UInt8) = UInt8.ofNat 0xBF from rfl, u8_inRange (by omega) (by decide) (by decide)]
      simp; omega
    have key : ∃ lo hi, leadInfo (UInt8.ofNat (0xE0 + v / 4096)) = some (3, lo, hi) ∧ inRange (UInt8.ofNat (0x80 + v / 64 % 64)) lo hi = true := by
      rw [leadInfo_nat _ (show 0xE0 + v / 4096 < 256 by omega)]
      rw [if_neg (by omega)]
      by_cases c1 : 0xE0 + v / 4096 = 0xE0
      · rw [if_pos c1]
        refine ⟨_, _, rfl, ?_⟩
        rw [show (0xA0 : UInt8) = UInt8.ofNat 0xA0 from rfl, show (0xBF : UInt8) = UInt8.ofNat 0xBF from rfl, u8_inRange (by omega) (by decide) (by decide)]
        simp; omega
      rw [if_neg c1]
      by_cases c2 : 0xE0 + v / 4096 = 0xED
      · rw [if_pos c2]
        refine ⟨_, _, rfl, ?_⟩
        rw [show (0x80 : UInt8) = UInt8.ofNat 0x80 from rfl, show (0x9F : UInt8) = UInt8.ofNat 0x9F from rfl, u8_inRange (by omega) (by decide) (by decide)]
        simp; omega
      rw [if_neg c2, if_pos (by omega)]
      refine ⟨_, _, rfl, ?_⟩
      rw [show (0x80 : UInt8) = UInt8.ofNat 0x80 from rfl, show (0xBF : UInt8) = UInt8.ofNat 0xBF from rfl, u8_inRange (by omega) (by decide) (by decide)]
      simp; omega
    obtain ⟨lo, hi, k1, k2⟩ := key
    simp only [decodeRune, List.cons_append, if_neg a0, k1, k2, b2, Bool.and_self, if_true, List.length_cons, List.length_nil, Prod.mk.injEq, and_true,
      u8 (show 0xE0 + v / 4096 < 256 by omega), u8 (show 0x80 + v / 64 % 64 < 256 by omega), u8 (show 0x80 + v % 64 < 256 by omega)]
    omega
  · have a0 : ¬ UInt8.ofNat (0xF0 + v / 262144) < 0x80 := fun h => by
      have := (u8_lt (m := 0x80) (by omega) (by decide)).1 h
      omega
    have b2 : ∀ x, inRange (UInt8.ofNat (0x80 + x % 64)) 0x80 0xBF = true := fun x => by
      rw [show (0x80 : UInt8) = UInt8.ofNat 0x80 from rfl, show (0xBF : UInt8) = UInt8.ofNat 0xBF from rfl, u8_inRange (by omega) (by decide) (by decide)]
      simp; omega
    have key : ∃ lo hi, leadInfo (UInt8.ofNat (0xF0 + v / 262144)) = some (4, lo, hi) ∧ inRange (UInt8.ofNat (0x80 + v / 4096 % 64)) lo hi = true := by
      rw [leadInfo_nat _ (show 0xF0 + v / 262144 < 256 by omega)]
      rw [if_neg (by omega), if_neg (by omega), if_neg (by omega), if_neg (by omega)]
      by_cases c1 : 0xF0 + v / 262144 = 0xF0
      · rw [if_pos c1]
        refine ⟨_, _, rfl, ?_⟩
        rw [show (0x90 : UInt8) = UInt8.ofNat 0x90 from rfl, show (0xBF : UInt8) = UInt8.ofNat 0xBF from rfl, u8_inRange (by omega) (by decide) (by decide)]
        simp; omega
      rw [if_neg c1]
      by_cases c2 : 0xF1 ≤ 0xF0 + v / 262144 ∧ 0xF0 + v / 262144 ≤ 0xF3
      · rw [if_pos c2]
        exact ⟨_, _, rfl, b2 _⟩
      rw [if_neg c2, if_pos (by omega)]
      refine ⟨_, _, rfl, ?_⟩
      rw [show (0x80 : UInt8) = UInt8.ofNat 0x80 from rfl, show (0x8F : UInt8) = UInt8.ofNat 0x8F from rfl, u8_inRange (by omega) (by decide) (by decide)]
      simp; omega
    obtain ⟨lo, hi, k1, k2⟩ := key
    simp only [decodeRune, List.cons_append, if_neg a0, k1, k2, b2, Bool.and_self, if_true, List.length_cons, List.length_nil, Prod.mk.injEq, and_true,
      u8 (show 0xF0 + v / 262144 < 256 by omega), u8 (show 0x80 + v / 4096 % 64 < 256 by omega), u8 (show 0x80 + v / 64 % 64 < 256 by omega),
      u8 (show 0x80 + v % 64 < 256 by omega)]
    omega

/-! ## Runes -/

/-- Every rune takes at least one byte and at most four. -/
theorem decodeRune_width (b : UInt8) (s : Bytes) : 1 ≤ (decodeRune (b :: s)).2 ∧ (decodeRune (b :: s)).2 ≤ 4 ∧
    (decodeRune (b :: s)).2 ≤ s.length + 1 := by
  simp only [decodeRune]
  split
  · simp
  split <;> try (split <;> simp)
  all_goals simp

theorem runesAux_fuel : ∀ (n m : Nat) (s : Bytes), s.length ≤ n → s.length ≤ m → runesAux n s = runesAux m s := by
  intro n
  induction n with
  | zero =>
    intro m s h h'
    cases s with
    | nil => cases m <;> rfl
    | cons => simp at h
  | succ n ih =>
    intro m s h h'
    cases s with
    | nil => cases m <;> rfl
    | cons b s =>
      cases m with
      | zero => simp at h'
      | succ m =>
        have hw := decodeRune_width b s
        rw [runesAux, runesAux]
        simp only
        rw [ih m _ (by simp at h ⊢; omega) (by simp at h' ⊢; omega)]

theorem runes_cons (b : UInt8) (s : Bytes) : runes (b :: s) = (decodeRune (b :: s)).1 :: runes ((b :: s).drop (decodeRune (b :: s)).2) := by
  have hw := decodeRune_width b s
  rw [runes, List.length_cons, runesAux, runes]
  simp only
  rw [runesAux_fuel s.length _ _ (by simp; omega) (Nat.le_refl _)]

theorem enc_cons (c : Char) : ∃ b t, String.utf8EncodeChar c = b :: t := List.exists_cons_of_ne_nil String.utf8EncodeChar_ne_nil

theorem runes_char (c : Char) (s : Bytes) : runes (String.utf8EncodeChar c ++ s) = c.toNat :: runes s := by
  obtain ⟨b, t, e⟩ := enc_cons c
  have hd := decodeRune_char c s
  rw [e, List.cons_append] at hd ⊢
  rw [runes_cons, hd, ← List.cons_append, List.drop_left]

theorem utf8_nil : utf8 [] = [] := rfl
theorem utf8_cons (c : Char) (cs : List Char) : utf8 (c :: cs) = String.utf8EncodeChar c ++ utf8 cs := rfl
theorem utf8_append (a b : List Char) : utf8 (a ++ b) = utf8 a ++ utf8 b := by simp [utf8]

theorem runes_utf8 (cs : List Char) (s : Bytes) : runes (utf8 cs ++ s) = cs.map Char.toNat ++ runes s := by
  induction cs with
  | nil => rfl
  | cons c cs ih => rw [utf8_cons, List.append_assoc, runes_char, ih]; rfl

/-- ASCII text. -/
theorem enc_ascii {c : Char} (h : c.toNat < 0x80) : String.utf8EncodeChar c = [UInt8.ofNat c.toNat] := by
  rcases enc_cases c with ⟨_, e⟩ | ⟨h1, _⟩ | ⟨h1, _⟩ | ⟨h1, _⟩
  · exact e
  all_goals omega

/-- The bytes of other characters. -/
theorem enc_high {c : Char} (h : 0x80 ≤ c.toNat) : ∀ b ∈ String.utf8EncodeChar c, 0x80 ≤ b := by
  have hv := char_valid c
  have key : ∀ n : Nat, 0x80 ≤ n → n < 256 → 0x80 ≤ UInt8.ofNat n := fun n h1 h2 => (u8_le (n := 0x80) (by decide) h2).2 h1
  rcases enc_cases c with ⟨h1, e⟩ | ⟨h1, h2, e⟩ | ⟨h1, h2, e⟩ | ⟨h1, e⟩
  · omega
  all_goals
    rw [e]
    intro b hb
    simp only [List.mem_cons, List.not_mem_nil, or_false] at hb
  · rcases hb with rfl | rfl <;> exact key _ (by omega) (by omega)
  · rcases hb with rfl | rfl | rfl <;> exact key _ (by omega) (by omega)
  · rcases hb with rfl | rfl | rfl | rfl <;> exact key _ (by omega) (by omega)

/-- The ASCII characters of a text are the bytes below 0x80. -/
theorem mem_utf8 {b : UInt8} (hb : b < 0x80) {cs : List Char} (h : b ∈ utf8 cs) : ∃ c ∈ cs, c.toNat = b.toNat := by
  rw [utf8, List.mem_flatMap] at h
  obtain ⟨c, hc, hb'⟩ := h
  refine ⟨c, hc, ?_⟩
  by_cases h : c.toNat < 0x80
  · rw [enc_ascii h, List.mem_singleton] at hb'
    rw [hb', u8 (by omega)]
  · have := enc_high (by omega) b hb'
    rw [UInt8.le_iff_toNat_le] at this
    rw [UInt8.lt_iff_toNat_lt] at hb
    simp at this hb
    omega

/-- Bytes that are not ASCII do not give an ASCII rune. -/
theorem decodeRune_high {b : UInt8} (h : ¬ b < 0x80) (s : Bytes) : 0x80 ≤ (decodeRune (b :: s)).1 := by
  have hb := b.toNat_lt
  have hl := leadInfo_nat b.toNat hb
  rw [UInt8.ofNat_toNat] at hl
  have hlo : ∀ (x : UInt8) (lo hi : UInt8), inRange x lo hi = true → lo.toNat ≤ x.toNat ∧ x.toNat ≤ hi.toNat := by
    intro x lo hi hx
    simp only [inRange, Bool.and_eq_true, decide_eq_true_eq, UInt8.le_iff_toNat_le] at hx
    exact hx
  simp only [decodeRune, if_neg h]
  split
  · rename_i lo hi b1 t hi'
    rw [hl] at hi'
    split
    · have : 0xC2 ≤ b.toNat ∧ b.toNat ≤ 0xDF := by
        revert hi'
        repeat' split
        all_goals simp
        all_goals omega
      simp only
      omega
    · simp [runeError]
  · rename_i lo hi b1 b2 t hi'
    rw [hl] at hi'
    split
    · rename_i hr
      rw [Bool.and_eq_true] at hr
      have h1 := hlo _ _ _ hr.1
      have : (b.toNat = 0xE0 ∧ 0xA0 ≤ b1.toNat ∧ b1.toNat ≤ 0xBF) ∨ (0xE1 ≤ b.toNat ∧ b.toNat ≤ 0xEF) := by
        revert hi'
        repeat' split
        all_goals simp
        · rintro rfl rfl; left; exact ⟨by assumption, h1.1, h1.2⟩
        all_goals omega
      simp only
      omega
    · simp [runeError]
  · rename_i lo hi b1 b2 b3 t hi'
    rw [hl] at hi'
    split
    · rename_i hr
      rw [Bool.and_eq_true, Bool.and_eq_true] at hr
      have h1 := hlo _ _ _ hr.1.1
      have : (b.toNat = 0xF0 ∧ 0x90 ≤ b1.toNat ∧ b1.toNat ≤ 0xBF) ∨ (0xF1 ≤ b.toNat ∧ b.toNat ≤ 0xF4) := by
        revert hi'
        repeat' split
        all_goals simp
        · rintro rfl rfl; left; exact ⟨by assumption, h1.1, h1.2⟩
        all_goals omega
      simp only
      omega
    · simp [runeError]
  · simp [runeError]

theorem encodeRune_high (r : Nat) (h : 0x80 ≤ r) : encodeRune r ≠ [] ∧ ∀ b ∈ encodeRune r, 0x80 ≤ b := by
  have key : ∀ n : Nat, 0x80 ≤ n → n < 256 → 0x80 ≤ UInt8.ofNat n := fun n h1 h2 => (u8_le (n := 0x80) (by decide) h2).2 h1
  have hr : ∀ r : Nat, 0x80 ≤ r → r ≤ 0x10FFFF → ∀ l, (if r < 0x80 then [UInt8.ofNat r]
      else if r < 0x800 then [UInt8.ofNat (0xC0 + r / 64), UInt8.ofNat (0x80 + r % 64)]
      else if r < 0x10000 then [UInt8.ofNat (0xE0 + r / 4096), UInt8.ofNat (0x80 + r / 64 % 64), UInt8.ofNat (0x80 + r % 64)]
      else [UInt8.ofNat (0xF0 + r / 262144), UInt8.ofNat (0x80 + r / 4096 % 64), UInt8.ofNat (0x80 + r / 64 % 64), UInt8.ofNat (0x80 + r % 64)]) = l →
      l ≠ [] ∧ ∀ b ∈ l, 0x80 ≤ b := by
    intro r h1 h2 l hl
    rw [if_neg (by omega)] at hl
    subst hl
    repeat' split
    all_goals
      refine ⟨by simp, fun b hb => ?_⟩
      simp only [List.mem_cons, List.not_mem_nil, or_false] at hb
    · rcases hb with rfl | rfl <;> exact key _ (by omega) (by omega)
    · rcases hb with rfl | rfl | rfl <;> exact key _ (by omega) (by omega)
    · rcases hb with rfl | rfl | rfl | rfl <;> exact key _ (by omega) (by omega)
  simp only [encodeRune]
  by_cases hc : r > 0x10FFFF ∨ (0xD800 ≤ r ∧ r ≤ 0xDFFF)
  · simp only [if_pos hc]
    exact hr runeError (by decide) (by decide) _ rfl
  · simp only [if_neg hc]
    exact hr r h (by omega) _ rfl

/-! ## White space -/

theorem isSpace_white (r : Nat) : isSpace r = decide (r ∈ white) := by
  have h : (isSpace r = true) ↔ r ∈ white := by
    simp only [isSpace, white, Bool.or_eq_true, Bool.and_eq_true, decide_eq_true_eq, beq_iff_eq, List.mem_cons, List.not_mem_nil, or_false]
    omega
  by_cases hw : r ∈ white
  · rw [h.2 hw]; simp [hw]
  · simp only [hw, decide_false]
    exact Bool.eq_false_iff.2 fun e => hw (h.1 e)

theorem isSpace_char (c : Char) : isSpace c.toNat = decide (White c) := isSpace_white _

theorem trimLeftAux_utf8 (cs : List Char) : ∀ n, (utf8 cs).length ≤ n → trimLeftAux n (utf8 cs) = utf8 (cs.dropWhile fun c => decide (White c)) := by
  induction cs with
  | nil => intro n _; cases n <;> rfl
  | cons c cs ih =>
    intro n hn
    obtain ⟨b, t, e⟩ := enc_cons c
    cases n with
    | zero => rw [utf8_cons, e] at hn; simp at hn
    | succ n =>
      have hd := decodeRune_char c (utf8 cs)
      rw [utf8_cons] at hn ⊢
      rw [List.dropWhile_cons]
      have e1 : trimLeftAux (n + 1) (String.utf8EncodeChar c ++ utf8 cs) =
          if isSpace c.toNat then trimLeftAux n (utf8 cs) else String.utf8EncodeChar c ++ utf8 cs := by
        rw [e, List.cons_append] at hd ⊢
        rw [trimLeftAux, hd]
        simp only
        rw [← List.cons_append, List.drop_left]
      rw [e1, isSpace_char]
      by_cases hw : White c
      · rw [if_pos (decide_eq_true hw), if_pos (by simpa using hw)]
        exact ih n (by rw [e] at hn; simp at hn; omega)
      · rw [if_neg (by rw [decide_eq_true_eq]; exact hw), if_neg (by rw [decide_eq_true_eq]; exact hw)]
        rfl

theorem runeStart_cont (n : Nat) (h1 : 0x80 ≤ n) (h2 : n < 0xC0) : runeStart (UInt8.ofNat n) = false := by
  have : ∀ n : Fin 256, 0x80 ≤ n.val → n.val < 0xC0 → runeStart (UInt8.ofNat n.val) = false := by decide +kernel
  exact this ⟨n, by omega⟩ h1 h2

theorem runeStart_lead (n : Nat) (h1 : 0xC0 ≤ n) (h2 : n < 0x100) : runeStart (UInt8.ofNat n) = true := by
  have : ∀ n : Fin 256, 0xC0 ≤ n.val → runeStart (UInt8.ofNat n.val) = true := by decide +kernel
  exact this ⟨n, h2⟩ h1

theorem lastStart_two (a : Bytes) (x y : UInt8) (hx : runeStart x = true) : lastStart (a ++ [x, y]) = a.length := by
  simp [lastStart, hx]

theorem lastStart_three (a : Bytes) (x y z : UInt8) (hx : runeStart x = true) (hy : runeStart y = false) : lastStart (a ++ [x, y, z]) = a.length := by
  simp [lastStart, hx, hy, List.getElem?_append]

theorem lastStart_four (a : Bytes) (x y z w : UInt8) (hx : runeStart x = true) (hy : runeStart y = false) (hz : runeStart z = false) :
    lastStart (a ++ [x, y, z, w]) = a.length := by
  simp [lastStart, hx, hy, hz, List.getElem?_append]

theorem decodeLastRune_char (c : Char) (a : Bytes) : decodeLastRune (a ++ String.utf8EncodeChar c) = (c.toNat, (String.utf8EncodeChar c).length) := by
  have hv := char_valid c
  have hd := decodeRune_char c []
  rw [List.append_nil] at hd
  have fin : ∀ b : UInt8, (a ++ String.utf8EncodeChar c).getLast? = some b → ¬ b < 0x80 → lastStart (a ++ String.utf8EncodeChar c) = a.length →
      decodeLastRune (a ++ String.utf8EncodeChar c) = (c.toNat, (String.utf8EncodeChar c).length) := by
    intro b h1 h2 h3
    rw [decodeLastRune, h1]
    simp only [if_neg h2, h3, List.drop_left, hd]
    simp
  rcases enc_cases c with ⟨h1, e⟩ | ⟨h1, h2, e⟩ | ⟨h1, h2, e⟩ | ⟨h1, e⟩
  · rw [e]
    have : UInt8.ofNat c.toNat < 0x80 := (u8_lt (m := 0x80) (by omega) (by decide)).2 h1
    simp only [decodeLastRune, List.getLast?_append, List.getLast?_singleton, Option.some_or, if_pos this, u8 (show c.toNat < 256 by omega), List.length_singleton]
  · have e' : ∀ h : ¬ UInt8.ofNat (0x80 + c.toNat % 64) < 0x80, _ := fun h => fin _ (by rw [e, List.getLast?_append]; rfl) h
      (by rw [e]; exact lastStart_two _ _ _ (runeStart_lead _ (by omega) (by omega)))
    refine e' fun h => ?_
    have := (u8_lt (m := 0x80) (by omega) (by decide)).1 h
    omega
  · have e' : ∀ h : ¬ UInt8.ofNat (0x80 + c.toNat % 64) < 0x80, _ := fun h => fin _ (by rw [e, List.getLast?_append]; rfl) h
      (by rw [e]; exact lastStart_three _ _ _ _ (runeStart_lead _ (by omega) (by omega)) (runeStart_cont _ (by omega) (by omega)))
    refine e' fun h => ?_
    have := (u8_lt (m := 0x80) (by omega) (by decide)).1 h
    omega
  · have e' : ∀ h : ¬ UInt8.ofNat (0x80 + c.toNat % 64) < 0x80, _ := fun h => fin _ (by rw [e, List.getLast?_append]; rfl) h
      (by rw [e]; exact lastStart_four _ _ _ _ _ (runeStart_lead _ (by omega) (by omega)) (runeStart_cont _ (by omega) (by omega)) (runeStart_cont _ (by omega) (by omega)))
    refine e' fun h => ?_
    have := (u8_lt (m := 0x80) (by omega) (by decide)).1 h
    omega

theorem trimRightAux_utf8 (cs : List Char) : ∀ n, (utf8 cs).length ≤ n →
    trimRightAux n (utf8 cs) = utf8 (cs.reverse.dropWhile fun c => decide (White c)).reverse := by
  induction h : cs.reverse generalizing cs with
  | nil =>
    intro n _
    have : cs = [] := by simpa using h
    subst this
    cases n <;> rfl
  | cons c r ih =>
    intro n hn
    have hcs : cs = r.reverse ++ [c] := by rw [← List.reverse_reverse cs, h]; simp
    have hu : utf8 cs = utf8 r.reverse ++ String.utf8EncodeChar c := by rw [hcs, utf8_append]; simp [utf8]
    obtain ⟨b, t, e⟩ := enc_cons c
    cases n with
    | zero => rw [hu, e] at hn; simp at hn
    | succ n =>
      have hne : utf8 cs ≠ [] := by rw [hu, e]; simp
      have e1 : trimRightAux (n + 1) (utf8 cs) = if isSpace c.toNat then trimRightAux n (utf8 r.reverse) else utf8 cs := by
        have hd := decodeLastRune_char c (utf8 r.reverse)
        rw [← hu] at hd
        obtain ⟨x, y, hxy⟩ := List.exists_cons_of_ne_nil hne
        rw [hxy] at hd
        rw [hxy, trimRightAux, hd, ← hxy]
        · simp only
          congr 2
          rw [hu]; simp
        · simp
      rw [e1, isSpace_char, List.dropWhile_cons]
      by_cases hw : White c
      · rw [if_pos (decide_eq_true hw), if_pos (decide_eq_true hw)]
        exact ih r.reverse (by simp) n (by rw [hu, e] at hn; simp at hn ⊢; omega)
      · rw [if_neg (by rw [decide_eq_true_eq]; exact hw), if_neg (by rw [decide_eq_true_eq]; exact hw), hcs]
        simp

/-- White space is taken from both ends of a text. -/
theorem trimSpace_utf8 (cs : List Char) : trimSpace (utf8 cs) =
    utf8 ((cs.dropWhile fun c => decide (White c)).reverse.dropWhile fun c => decide (White c)).reverse := by
  simp only [trimSpace]
  rw [trimLeftAux_utf8 cs _ (Nat.le_refl _), trimRightAux_utf8 _ _ (Nat.le_refl _)]

theorem trimSpace_utf8_keep (cs : List Char) (h1 : ∀ c, cs.head? = some c → ¬ White c) (h2 : ∀ c, cs.getLast? = some c → ¬ White c) :
    trimSpace (utf8 cs) = utf8 cs := by
  have key : ∀ cs : List Char, (∀ c, cs.head? = some c → ¬ White c) → (cs.dropWhile fun c => decide (White c)) = cs := by
    intro cs h
    cases cs with
    | nil => rfl
    | cons c cs => rw [List.dropWhile_cons, if_neg (by simpa using h c rfl)]
  rw [trimSpace_utf8, key cs h1, key cs.reverse (by simpa using h2), List.reverse_reverse]

/-! ## White space trimming of arbitrary bytes -/

theorem trimLeftAux_suffix : ∀ (n : Nat) (s : Bytes), ∃ l, s = l ++ trimLeftAux n s
  | 0, s => ⟨[], by simp [trimLeftAux]⟩
  | n + 1, [] => ⟨[], rfl⟩
  | n + 1, b :: s => by
    rw [trimLeftAux]
    simp only
    split
    · obtain ⟨l, hl⟩ := trimLeftAux_suffix n ((b :: s).drop (decodeRune (b :: s)).2)
      refine ⟨(b :: s).take (decodeRune (b :: s)).2 ++ l, ?_⟩
      rw [List.append_assoc, ← hl, List.take_append_drop]
    · exact ⟨[], rfl⟩

theorem lastStart_lt (s : Bytes) (h : 2 ≤ s.length) : lastStart s + 2 ≤ s.length := by
  simp only [lastStart]
  repeat' split
  all_goals first | omega | skip
  all_goals (simp at *; try omega)

/-- What is cut from the end begins with ASCII white space or with a byte that is not ASCII. -/
theorem trimRightAux_prefix : ∀ (n : Nat) (s : Bytes), ∃ l, s = trimRightAux n s ++ l ∧ ∀ b, l.head? = some b → asciiSpace b = true ∨ 0x80 ≤ b
  | 0, s => ⟨[], by simp [trimRightAux], by simp⟩
  | n + 1, [] => ⟨[], by simp [trimRightAux], by simp⟩
  | n + 1, b :: s => by
    rw [trimRightAux]
    · simp only
      split
      · rename_i hsp
        obtain ⟨l, hl, hh⟩ := trimRightAux_prefix n ((b :: s).take ((b :: s).length - (decodeLastRune (b :: s)).2))
        refine ⟨l ++ (b :: s).drop ((b :: s).length - (decodeLastRune (b :: s)).2), ?_, ?_⟩
        · rw [← List.append_assoc, ← hl, List.take_append_drop]
        · intro x hx
          cases l with
          | cons y l => exact hh x (by simpa using hx)
          | nil =>
            rw [List.nil_append] at hx
            obtain ⟨z, hz⟩ : ∃ z, (b :: s).getLast? = some z := ⟨_, List.getLast?_eq_some_getLast (by simp)⟩
            obtain ⟨i, hi⟩ := List.getLast?_eq_some_iff.1 hz
            by_cases hz8 : z < 0x80
            · have hd : decodeLastRune (b :: s) = (z.toNat, 1) := by rw [decodeLastRune, hz]; simp only [if_pos hz8]
              rw [hd, hi] at hx
              rw [hd] at hsp
              rw [isSpace_ascii hz8] at hsp
              simp at hx
              subst hx
              exact .inl hsp
            · by_cases hlen : 2 ≤ (b :: s).length
              · have hls := lastStart_lt (b :: s) hlen
                obtain ⟨c, t, hct⟩ : ∃ c t, (b :: s).drop (lastStart (b :: s)) = c :: t :=
                  List.exists_cons_of_ne_nil (by intro h; have := congrArg List.length h; simp at this; simp at hls; omega)
                have hd : decodeLastRune (b :: s) = if lastStart (b :: s) + (decodeRune (c :: t)).2 ≠ (b :: s).length then (runeError, 1) else decodeRune (c :: t) := by
                  rw [decodeLastRune, hz]; simp only [if_neg hz8, hct]
                by_cases hw : lastStart (b :: s) + (decodeRune (c :: t)).2 = (b :: s).length
                · rw [hd, if_neg (by simpa using hw)] at hx
                  rw [show (b :: s).length - (decodeRune (c :: t)).2 = lastStart (b :: s) by omega, hct] at hx
                  simp at hx
                  subst hx
                  right
                  by_cases hc : c < 0x80
                  · rw [decodeRune_ascii hc] at hw
                    simp only at hw
                    omega
                  · exact UInt8.not_lt.1 hc
                · rw [hd, if_pos hw] at hsp
                  exact absurd hsp (by decide)
              · have hs0 : s = [] := by
                  cases s with
                  | nil => rfl
                  | cons => simp at hlen
                subst hs0
                simp at hz
                subst hz
                have := List.mem_of_head? hx
                have := List.mem_of_mem_drop this
                simp at this
                subst this
                exact .inr (UInt8.not_lt.1 hz8)
      · exact ⟨[], by simp, by simp⟩
    · simp

end Verif.Str
