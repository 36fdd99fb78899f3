import Verif.Model.SipsMsg
/-! # Lemmas about the string functions -/
namespace Verif.Str

theorem isAscii_iff (s : Bytes) : isAscii s = true ↔ ∀ b ∈ s, b < 0x80 := by simp [isAscii]

theorem decodeRune_ascii {b : UInt8} (h : b < 0x80) (s : Bytes) : decodeRune (b :: s) = (b.toNat, 1) := by
  simp [decodeRune, h]

theorem encodeRune_ascii {b : UInt8} (h : b < 0x80) : encodeRune b.toNat = [b] := by
  have h' : b.toNat < 128 := h
  have h1 : ¬ (b.toNat > 0x10FFFF ∨ (0xD800 ≤ b.toNat ∧ b.toNat ≤ 0xDFFF)) := by omega
  simp only [encodeRune, if_neg h1]
  rw [if_pos h']
  simp

/-- The ASCII white space characters. -/
def asciiSpace (b : UInt8) : Bool := (9 ≤ b && b ≤ 13) || b == 32

theorem isSpace_ascii {b : UInt8} (h : b < 0x80) : isSpace b.toNat = asciiSpace b := by
  revert h; revert b
  have : ∀ n : Fin 128, isSpace (UInt8.ofNat n.val).toNat = asciiSpace (UInt8.ofNat n.val) := by decide +kernel
  intro b h
  have := this ⟨b.toNat, h⟩
  simpa using this

theorem trimLeftAux_keep (s : Bytes) (n : Nat) (h : ∀ b, s.head? = some b → b < 0x80 ∧ asciiSpace b = false) :
    trimLeftAux n s = s := by
  cases n with
  | zero => rfl
  | succ n =>
    cases s with
    | nil => rfl
    | cons b s =>
      obtain ⟨h1, h2⟩ := h b rfl
      simp [trimLeftAux, decodeRune_ascii h1, isSpace_ascii h1, h2]

theorem trimRightAux_keep (s : Bytes) (n : Nat) (h : ∀ b, s.getLast? = some b → b < 0x80 ∧ asciiSpace b = false) :
    trimRightAux n s = s := by
  cases n with
  | zero => rfl
  | succ n =>
    cases s with
    | nil => rfl
    | cons b s =>
      have hl : (b :: s).getLast? = some ((b :: s).getLast (by simp)) := List.getLast?_eq_some_getLast (by simp)
      obtain ⟨h1, h2⟩ := h _ hl
      simp only [trimRightAux, decodeLastRune, hl, if_pos h1, isSpace_ascii h1, h2]
      simp

@[simp] theorem trimSpace_nil : trimSpace [] = [] := rfl

/-! ## index -/

theorem index_ge (c : UInt8) (s : Bytes) : -1 ≤ index c s := by
  induction s with
  | nil => simp [index]
  | cons b s ih =>
    simp only [index]
    split
    · omega
    · split <;> omega

theorem index_neg_iff (c : UInt8) (s : Bytes) : index c s < 0 ↔ c ∉ s := by
  induction s with
  | nil => simp [index]
  | cons b s ih =>
    simp only [index]
    split
    · next h => simp [h]
    · next h =>
      have : ¬ c = b := fun e => h e.symm
      split
      · next h' => simp [this, ih.1 h']
      · next h' =>
        have h'' : ¬ c ∉ s := fun x => h' (ih.2 x)
        simp only [List.mem_cons, this, false_or]
        constructor
        · intro; omega
        · intro x; exact absurd x h''

theorem index_not_mem {c : UInt8} {s : Bytes} (h : c ∉ s) : index c s = -1 := by
  have h1 := (index_neg_iff c s).2 h
  have h2 := index_ge c s
  omega

theorem index_append {c : UInt8} {s : Bytes} (h : c ∉ s) (r : Bytes) : index c (s ++ c :: r) = s.length := by
  induction s with
  | nil => simp [index]
  | cons b s ih =>
    have hb : ¬ b = c := by intro e; simp [e] at h
    have ih := ih (by simp at h; exact h.2)
    simp only [List.cons_append, index, if_neg hb, ih]
    rw [if_neg (by omega)]
    simp

/-- A string with `c` in it is cut at the first `c`. -/
theorem index_split {c : UInt8} {s : Bytes} (h : c ∈ s) :
    ∃ a r, s = a ++ c :: r ∧ c ∉ a ∧ index c s = a.length := by
  induction s with
  | nil => simp at h
  | cons b s ih =>
    by_cases hb : b = c
    · exact ⟨[], s, by simp [hb], by simp, by simp [index, hb]⟩
    · have hs : c ∈ s := by
        rcases List.mem_cons.1 h with h | h
        · exact absurd h.symm hb
        · exact h
      obtain ⟨a, r, e, hn, hi⟩ := ih hs
      refine ⟨b :: a, r, by simp [e], ?_, ?_⟩
      · simp [hn]; exact fun e => hb e.symm
      · simp only [index, if_neg hb, hi]
        rw [if_neg (by omega)]; simp

theorem goSlice_nat {α} (l : List α) (lo hi : Nat) (h1 : lo ≤ hi) (h2 : hi ≤ l.length) :
    goSlice l lo hi = .ok ((l.take hi).drop lo) := by
  simp only [goSlice]
  rw [if_pos (by omega)]
  simp

theorem goSlice_suffix {α} (a r : List α) (n : Nat) (h : a.length = n) :
    goSlice (a ++ r) n (a ++ r).length = .ok r := by
  subst h
  rw [goSlice_nat _ _ _ (by simp) (Nat.le_refl _), List.take_length]
  simp

theorem goSlice_prefix {α} (a r : List α) (n : Nat) (h : a.length = n) :
    goSlice (a ++ r) 0 n = .ok a := by
  subst h
  rw [show (0 : Int) = ((0 : Nat) : Int) from rfl, goSlice_nat _ _ _ (by simp) (by simp)]
  simp

end Verif.Str
