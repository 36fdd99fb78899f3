import Verif.Lemmas.Utf8
import Verif.Spec.Sips
/-! # Lemmas about header arguments -/
namespace Verif.Sips
open Verif.Str Verif.Spec Verif.Spec.Sips

theorem Printable.ascii {b : UInt8} (h : Printable b) : b < 0x80 := by
  have : b.toNat ≤ 0x7e := h.2
  show b.toNat < 128
  omega

theorem Printable.space {b : UInt8} (h : Printable b) (h' : b ≠ 0x20) : asciiSpace b = false := by
  have h1 : 0x20 ≤ b.toNat := h.1
  have h2 : b.toNat ≤ 0x7e := h.2
  have h3 : b.toNat ≠ 0x20 := fun e => h' (UInt8.toNat_inj.1 e)
  simp only [asciiSpace, Bool.or_eq_false_iff, Bool.and_eq_false_iff, beq_eq_false_iff_ne]
  refine ⟨Or.inr ?_, h'⟩
  simp only [decide_eq_false_iff_not, UInt8.not_le]
  show 13 < b.toNat
  omega

/-! ## Text with visible ends -/

theorem utf8_inj {a b : List Char} (h : utf8 a = utf8 b) : a = b := by
  have h1 := runes_utf8 a []
  have h2 := runes_utf8 b []
  rw [List.append_nil] at h1 h2
  rw [h, h2] at h1
  have hr : (runes []) = [] := rfl
  rw [hr, List.append_nil, List.append_nil] at h1
  exact (List.map_inj_right fun x y hxy => Char.ext (UInt32.toNat_inj.1 hxy)).1 h1.symm

/-- The text is UTF-8. -/
def IsUtf8 (s : Bytes) : Prop := ∃ cs, s = utf8 cs

/-- The first character is not white space. -/
def HeadBlack (s : Bytes) : Prop := ∃ cs c, s = utf8 cs ∧ cs.head? = some c ∧ ¬ White c

/-- The last character is not white space. -/
def LastBlack (s : Bytes) : Prop := ∃ cs c, s = utf8 cs ∧ cs.getLast? = some c ∧ ¬ White c

theorem IsUtf8.append {s t : Bytes} (hs : IsUtf8 s) (ht : IsUtf8 t) : IsUtf8 (s ++ t) := by
  obtain ⟨a, rfl⟩ := hs
  obtain ⟨b, rfl⟩ := ht
  exact ⟨a ++ b, (utf8_append a b).symm⟩

theorem HeadBlack.isUtf8 {s : Bytes} (h : HeadBlack s) : IsUtf8 s := let ⟨cs, _, h, _⟩ := h; ⟨cs, h⟩
theorem LastBlack.isUtf8 {s : Bytes} (h : LastBlack s) : IsUtf8 s := let ⟨cs, _, h, _⟩ := h; ⟨cs, h⟩

theorem HeadBlack.append {s t : Bytes} (hs : HeadBlack s) (ht : IsUtf8 t) : HeadBlack (s ++ t) := by
  obtain ⟨a, c, rfl, h1, h2⟩ := hs
  obtain ⟨b, rfl⟩ := ht
  refine ⟨a ++ b, c, (utf8_append a b).symm, ?_, h2⟩
  rw [List.head?_append, h1]; rfl

theorem LastBlack.append {s t : Bytes} (ht : LastBlack t) (hs : IsUtf8 s) : LastBlack (s ++ t) := by
  obtain ⟨b, c, rfl, h1, h2⟩ := ht
  obtain ⟨a, rfl⟩ := hs
  refine ⟨a ++ b, c, (utf8_append a b).symm, ?_, h2⟩
  rw [List.getLast?_append, h1]; rfl

theorem ascii_utf8 {b : UInt8} (h : b < 0x80) : utf8 [Char.ofNat b.toNat] = [b] := by
  have hb : b.toNat < 128 := h
  have hn : (Char.ofNat b.toNat).toNat = b.toNat := by
    rw [Char.ofNat, dif_pos (Or.inl (by omega))]
    rfl
  rw [utf8_cons, utf8_nil, List.append_nil, enc_ascii (by omega), hn, UInt8.ofNat_toNat]

/-- The characters of ASCII text. -/
def asChars (s : Bytes) : List Char := s.map fun b => Char.ofNat b.toNat

theorem utf8_asChars (s : Bytes) (h : ∀ b ∈ s, b < 0x80) : utf8 (asChars s) = s := by
  induction s with
  | nil => rfl
  | cons b s ih =>
    have := ascii_utf8 (h b (by simp))
    rw [utf8_cons, utf8_nil, List.append_nil] at this
    rw [asChars, List.map_cons, utf8_cons, this]
    exact congrArg (b :: ·) (ih fun x hx => h x (by simp [hx]))

theorem isUtf8_ascii (s : Bytes) (h : ∀ b ∈ s, b < 0x80) : IsUtf8 s := ⟨asChars s, (utf8_asChars s h).symm⟩

theorem chr_toNat {b : UInt8} : (Char.ofNat b.toNat).toNat = b.toNat := by
  have hb := b.toNat_lt
  rw [Char.ofNat, dif_pos (Or.inl (by omega))]
  rfl

/-- Blanks in front are removed, and nothing else. -/
theorem trimSpace_blanks (a s : Bytes) (ha : ∀ b ∈ a, b = 0x20 ∨ b = 9) (h1 : HeadBlack s) (h2 : LastBlack s) :
    trimSpace (a ++ s) = s := by
  obtain ⟨cs, c, rfl, k1, k2⟩ := h1
  obtain ⟨ds, d, e, l1, l2⟩ := h2
  have := utf8_inj e
  subst this
  have hasc : ∀ b ∈ a, b < 0x80 := fun b hb => by rcases ha b hb with rfl | rfl <;> decide
  have key : ∀ cs : List Char, ∀ c, cs.head? = some c → ¬ White c → cs.dropWhile (fun c => decide (White c)) = cs := by
    intro cs c h hc
    cases cs with
    | nil => rfl
    | cons x cs =>
      simp only [List.head?_cons, Option.some.injEq] at h
      subst h
      rw [List.dropWhile_cons, if_neg (by simpa using hc)]
  have hd : ∀ a : Bytes, (∀ b ∈ a, b = 0x20 ∨ b = 9) → (asChars a ++ cs).dropWhile (fun c => decide (White c)) = cs := by
    intro a ha
    induction a with
    | nil => exact key cs c k1 k2
    | cons b a ih =>
      rw [asChars, List.map_cons, List.cons_append, List.dropWhile_cons, if_pos]
      · exact ih fun x hx => ha x (by simp [hx])
      · rcases ha b (by simp) with rfl | rfl <;> decide
  rw [← utf8_asChars a hasc, ← utf8_append, trimSpace_utf8, hd a ha, key cs.reverse d (by rw [List.head?_reverse]; exact l1) l2,
    List.reverse_reverse]

theorem trimSpace_black {s : Bytes} (h1 : HeadBlack s) (h2 : LastBlack s) : trimSpace s = s := trimSpace_blanks [] s (by simp) h1 h2

theorem lastBlack_ascii {b : UInt8} (h : b < 0x80) (hb : asciiSpace b = false) : LastBlack [b] :=
  ⟨[Char.ofNat b.toNat], _, (ascii_utf8 h).symm, rfl, by
    have := isSpace_char (Char.ofNat b.toNat)
    rw [chr_toNat, isSpace_ascii h, hb] at this
    simpa using this⟩

/-! ## Argument text -/

theorem argText_isUtf8 {s : Bytes} (h : ArgText s) : IsUtf8 s := let ⟨cs, h, _⟩ := h; ⟨cs, h⟩

theorem argText_head {s : Bytes} (h : ArgText s) (hne : s ≠ []) : HeadBlack s := by
  obtain ⟨cs, rfl, -, h1, -⟩ := h
  cases cs with
  | nil => exact absurd rfl hne
  | cons c cs => exact ⟨c :: cs, c, rfl, rfl, h1 c rfl⟩

theorem argText_last {s : Bytes} (h : ArgText s) (hne : s ≠ []) : LastBlack s := by
  obtain ⟨cs, rfl, -, -, h1⟩ := h
  cases hl : cs.getLast? with
  | none => rw [List.getLast?_eq_none_iff] at hl; subst hl; exact absurd rfl hne
  | some c => exact ⟨cs, c, rfl, hl, h1 c hl⟩

theorem argText_trim {s : Bytes} (h : ArgText s) : trimSpace s = s := by
  obtain ⟨cs, rfl, -, h1, h2⟩ := h
  exact trimSpace_utf8_keep cs h1 h2

theorem argText_not_mem {s : Bytes} (h : ArgText s) : (10 : UInt8) ∉ s ∧ (0x22 : UInt8) ∉ s ∧ (0x2c : UInt8) ∉ s ∧ (0x3b : UInt8) ∉ s := by
  obtain ⟨cs, rfl, h, -⟩ := h
  have key : ∀ (b : UInt8) (d : Char), b < 0x80 → d.toNat = b.toNat → (∀ c ∈ cs, c ≠ d) → b ∉ utf8 cs := by
    intro b d hb hd hc hm
    obtain ⟨c, h1, h2⟩ := mem_utf8 hb hm
    exact hc c h1 (Char.ext (UInt32.toNat_inj.1 (h2.trans hd.symm)))
  exact ⟨key _ '\n' (by decide) rfl fun c hc => (h c hc).1, key _ '"' (by decide) rfl fun c hc => (h c hc).2.1,
    key _ ',' (by decide) rfl fun c hc => (h c hc).2.2.1, key _ ';' (by decide) rfl fun c hc => (h c hc).2.2.2⟩

/-- Printable ASCII text. -/
theorem argText_ascii {s : Bytes} (h : ∀ b ∈ s, Printable b ∧ b ≠ 0x22 ∧ b ≠ 0x2c ∧ b ≠ 0x3b) (h1 : s.head? ≠ some 0x20)
    (h2 : s.getLast? ≠ some 0x20) : ArgText s := by
  have hasc : ∀ b ∈ s, b < 0x80 := fun b hb => Printable.ascii (h b hb).1
  have hw : ∀ b ∈ s, b ≠ 0x20 → ¬ White (Char.ofNat b.toNat) := by
    intro b hb hne
    have := isSpace_char (Char.ofNat b.toNat)
    rw [chr_toNat, isSpace_ascii (hasc b hb), Printable.space (h b hb).1 hne] at this
    simpa using this
  have hc : ∀ (b : UInt8) (d : Char) , Char.ofNat b.toNat = d → b.toNat = d.toNat := fun b d e => by rw [← e, chr_toNat]
  refine ⟨asChars s, (utf8_asChars s hasc).symm, ?_, ?_, ?_⟩
  · intro c hcm
    obtain ⟨b, hb, rfl⟩ := List.mem_map.1 hcm
    obtain ⟨hp, n1, n2, n3⟩ := h b hb
    have hp1 : 0x20 ≤ b.toNat := hp.1
    refine ⟨fun e => ?_, fun e => n1 ?_, fun e => n2 ?_, fun e => n3 ?_⟩
    · have := hc b _ e
      have : b.toNat = 10 := this
      omega
    all_goals exact UInt8.toNat_inj.1 (hc b _ e)
  · intro c hcm
    rw [asChars, List.head?_map, Option.map_eq_some_iff] at hcm
    obtain ⟨b, hb, rfl⟩ := hcm
    exact hw b (List.mem_of_head? hb) fun e => h1 (by rw [hb, e])
  · intro c hcm
    rw [asChars, List.getLast?_map, Option.map_eq_some_iff] at hcm
    obtain ⟨b, hb, rfl⟩ := hcm
    exact hw b (List.mem_of_getLast? hb) fun e => h2 (by rw [hb, e])

theorem ArgKey.first {s : Bytes} (h : ArgKey s) : HeadBlack s := argText_head h.toArgText h.nonempty

/-- Argument text between UTF-8 pieces. -/
theorem argText_append {a b : Bytes} (ha : ArgText a) (hb : ArgText b) (ha0 : a ≠ []) (hb0 : b ≠ []) (m : List Char)
    (hm : ∀ c ∈ m, c ≠ '\n' ∧ c ≠ '"' ∧ c ≠ ',' ∧ c ≠ ';') : ArgText (a ++ utf8 m ++ b) := by
  obtain ⟨x, rfl, x1, x2, x3⟩ := ha
  obtain ⟨y, rfl, y1, y2, y3⟩ := hb
  refine ⟨x ++ m ++ y, by rw [utf8_append, utf8_append], ?_, ?_, ?_⟩
  · intro c hc
    rcases List.mem_append.1 hc with hc | hc
    · rcases List.mem_append.1 hc with hc | hc
      · exact x1 c hc
      · exact hm c hc
    · exact y1 c hc
  · intro c hc
    cases x with
    | nil => exact absurd rfl ha0
    | cons d x => exact x2 c (by simpa using hc)
  · intro c hc
    cases hl : y.getLast? with
    | none => rw [List.getLast?_eq_none_iff] at hl; subst hl; exact absurd rfl hb0
    | some d =>
      rw [List.getLast?_append, hl] at hc
      exact y3 c (by rw [hl]; exact hc)

theorem getLast?_app (l : Bytes) {r : Bytes} (h : r ≠ []) : (l ++ r).getLast? = r.getLast? := by
  rw [List.getLast?_append]
  obtain ⟨x, hx⟩ : ∃ x, r.getLast? = some x := ⟨_, List.getLast?_eq_some_getLast h⟩
  rw [hx]; rfl

/-- One plain character goes to the buffer. -/
theorem listStep_plain (st : ListSt) (he : st.escape = false) (hq : st.quote = false) {c : Char}
    (hc : c ≠ '\n' ∧ c ≠ '"' ∧ c ≠ ',' ∧ c ≠ ';') : listStep st c.toNat = { st with b := st.b ++ String.utf8EncodeChar c } := by
  obtain ⟨h1, h2, h3, h4⟩ := hc
  have key : ∀ d : Char, c ≠ d → c.toNat ≠ d.toNat := fun d h e => h (Char.ext (UInt32.toNat_inj.1 e))
  have n1 : c.toNat ≠ 0x0a := key _ h1
  have n2 : c.toNat ≠ 0x22 := key _ h2
  have n3 : c.toNat ≠ 0x2c := key _ h3
  have n4 : c.toNat ≠ 0x3b := key _ h4
  simp [listStep, he, hq, n1, n2, n3, n4, encodeRune_char]

theorem listStep_chars (cs : List Char) (hs : ∀ c ∈ cs, c ≠ '\n' ∧ c ≠ '"' ∧ c ≠ ',' ∧ c ≠ ';') (t : Bytes) :
    ∀ st : ListSt, st.escape = false → st.quote = false →
      (runes (utf8 cs ++ t)).foldl listStep st = (runes t).foldl listStep { st with b := st.b ++ utf8 cs } := by
  induction cs with
  | nil => intro st _ _; simp [utf8_nil]
  | cons c cs ih =>
    intro st he hq
    rw [utf8_cons, List.append_assoc, runes_char, List.foldl_cons, listStep_plain st he hq (hs c (by simp)),
      ih (fun x hx => hs x (by simp [hx])) _ (by simpa using he) (by simpa using hq)]
    simp

theorem listStep_text {s : Bytes} (hs : ArgText s) (t : Bytes) (st : ListSt) (he : st.escape = false) (hq : st.quote = false) :
    (runes (s ++ t)).foldl listStep st = (runes t).foldl listStep { st with b := st.b ++ s } := by
  obtain ⟨cs, rfl, h, -⟩ := hs
  exact listStep_chars cs h t st he hq

theorem runes_ascii_cons {b : UInt8} (h : b < 0x80) (s : Bytes) : runes (b :: s) = b.toNat :: runes s := by
  rw [runes_cons, decodeRune_ascii h]; rfl

theorem listStep_semi (st : ListSt) (he : st.escape = false) (hq : st.quote = false) :
    listStep st 0x3b = { st with list := st.list ++ [trimSpace st.b], b := [] } := by
  simp [listStep, he, hq]

/-- The text of an argument without its semicolon. -/
def itemText (e : Bytes × Bytes) : Bytes := if e.2 = [] then e.1 else e.1 ++ b!"=" ++ e.2

theorem semiItem_eq (e : Bytes × Bytes) : semiItem e = 0x3b :: itemText e := by
  simp only [semiItem, itemText]; split <;> simp

theorem itemText_argText {e : Bytes × Bytes} (hk : ArgKey e.1) (hv : ArgText e.2) : ArgText (itemText e) := by
  simp only [itemText]
  split
  · exact hk.toArgText
  · next hne => exact argText_append hk.toArgText hv hk.nonempty hne ['='] (by decide)

theorem itemText_ne {e : Bytes × Bytes} (hk : ArgKey e.1) : itemText e ≠ [] := by
  simp only [itemText]
  split
  · exact hk.nonempty
  · simp

/-- `ParseList` of arguments joined by semicolons gives the arguments back. -/
theorem foldl_items (ts : List Bytes) (hts : ∀ t ∈ ts, ArgText t) :
    ∀ st : ListSt, st.escape = false → st.quote = false → ArgText st.b →
      (runes ((ts.map (fun t => (0x3b : UInt8) :: t)).flatten)).foldl listStep st =
        { st with list := st.list ++ (st.b :: ts).dropLast, b := (st.b :: ts).getLast (by simp) } := by
  induction ts with
  | nil => intro st _ _ _; simp [runes, runesAux]
  | cons t ts ih =>
    intro st he hq hb
    have ht := hts t (by simp)
    simp only [List.map_cons, List.flatten_cons, List.cons_append]
    rw [runes_ascii_cons (by decide), List.foldl_cons, show (0x3b : UInt8).toNat = 0x3b from rfl, listStep_semi st he hq, argText_trim hb,
      listStep_text ht _ _ (by simpa using he) (by simpa using hq)]
    rw [ih (fun x hx => hts x (by simp [hx])) _ (by simpa using he) (by simpa using hq) (by simpa using ht)]
    simp

theorem parseList_items (t : Bytes) (ts : List Bytes) (h : ∀ x ∈ t :: ts, ArgText x)
    (hne : ∀ x ∈ t :: ts, x ≠ []) :
    parseList (t ++ (ts.map (fun t => (0x3b : UInt8) :: t)).flatten) = t :: ts := by
  have ht := h t (by simp)
  have e : (runes (t ++ (ts.map (fun t => (0x3b : UInt8) :: t)).flatten)).foldl listStep {} =
      { list := (t :: ts).dropLast, b := (t :: ts).getLast (by simp) } := by
    rw [listStep_text ht _ _ rfl rfl, foldl_items ts (fun x hx => h x (by simp [hx])) _ rfl rfl (by simpa using ht)]
    simp
  have hl : (t :: ts).getLast (by simp) ∈ t :: ts := List.getLast_mem _
  simp only [parseList, e]
  rw [if_pos (hne _ hl), argText_trim (h _ hl)]
  exact List.dropLast_concat_getLast _

/-- Pieces joined by an ASCII separator. -/
theorem joined_black (sep : UInt8) (hsep : sep < 0x80) (ts : List Bytes) : ∀ t : Bytes, IsUtf8 t → (∀ x ∈ ts, IsUtf8 x) →
    (∀ x, (t :: ts).getLast? = some x → LastBlack x) → LastBlack (t ++ (ts.map (fun t => sep :: t)).flatten) := by
  induction ts with
  | nil => intro t _ _ h; simpa using h t rfl
  | cons u ts ih =>
    intro t ht hts h
    have := ih u (hts u (by simp)) (fun x hx => hts x (by simp [hx])) (fun x hx => h x (by rw [List.getLast?_cons_cons]; exact hx))
    rw [List.map_cons, List.flatten_cons, List.cons_append, show t ++ sep :: (u ++ (ts.map (fun t => sep :: t)).flatten) =
      (t ++ [sep]) ++ (u ++ (ts.map (fun t => sep :: t)).flatten) by simp]
    exact this.append (ht.append (isUtf8_ascii [sep] (by simpa using hsep)))

theorem joined_utf8 (sep : UInt8) (hsep : sep < 0x80) (ts : List Bytes) (h : ∀ x ∈ ts, IsUtf8 x) :
    IsUtf8 (ts.map (fun t => sep :: t)).flatten := by
  induction ts with
  | nil => exact ⟨[], rfl⟩
  | cons t ts ih =>
    rw [List.map_cons, List.flatten_cons]
    exact IsUtf8.append ((isUtf8_ascii [sep] (by simpa using hsep)).append (h t (by simp))) (ih fun x hx => h x (by simp [hx]))

theorem mset_fresh {α} (m : List (Bytes × α)) (k : Bytes) (v : α) (h : k ∉ m.map Prod.fst) :
    mset m k v = m ++ [(k, v)] := by
  simp only [mset]
  rw [if_neg]
  simp only [List.any_eq_true, not_exists, not_and, beq_iff_eq]
  intro e he hk
  exact h (hk ▸ List.mem_map_of_mem he)

theorem parsePair_item (m : Args) (e : Bytes × Bytes) (hk : ArgKey e.1) (hv : ArgText e.2) :
    parsePair m (itemText e) = .ok (mset m e.1 e.2) := by
  obtain ⟨k, v⟩ := e
  have hk : ArgKey k := hk
  have hv : ArgText v := hv
  simp only [itemText]
  split
  · next hv0 =>
    have hv0 : v = [] := hv0
    subst hv0
    simp [parsePair, index_not_mem hk.noEq]
  · next hv0 =>
    have hi : index 0x3d (k ++ [0x3d] ++ v) = k.length := by
      rw [List.append_assoc]; exact index_append hk.noEq v
    simp only [parsePair, hi]
    rw [if_neg (by omega)]
    have s1 : goSlice (k ++ [0x3d] ++ v) ((k.length : Int) + 1) (k ++ [0x3d] ++ v).length = .ok v := by
      have := goSlice_suffix (k ++ [(0x3d : UInt8)]) v (k.length + 1) (by simp)
      simpa using this
    have s2 : goSlice (k ++ [0x3d] ++ v) 0 (k.length : Int) = .ok k := by
      rw [List.append_assoc]; exact goSlice_prefix k _ _ rfl
    obtain ⟨c, v', rfl⟩ := List.exists_cons_of_ne_nil hv0
    have g0 : goIndex (c :: v') 0 = .ok c := by simp [goIndex]
    have gl : ∃ x, goIndex (c :: v') (((c :: v').length : Int) - 1) = .ok x := by
      have e1 : (((c :: v').length : Int) - 1) = (v'.length : Int) := by simp
      rw [e1]
      simp only [goIndex]
      rw [if_neg (by omega)]
      have : (c :: v')[(v'.length : Int).toNat]? = some ((c :: v')[v'.length]'(by simp)) := by simp
      rw [this]; exact ⟨_, rfl⟩
    obtain ⟨x, gl⟩ := gl
    have hc : ¬ (c = 0x22 ∧ x = 0x22) := fun h => (argText_not_mem hv).2.1 (by rw [h.1]; simp)
    simp only [s1, Res.bind_ok, g0, gl, if_neg hc, s2]

theorem pairLoop_items (es : List (Bytes × Bytes)) : ∀ (m : Args), ((m ++ es).map Prod.fst).Nodup →
    (∀ e ∈ es, ArgKey e.1) → (∀ e ∈ es, ArgText e.2) → pairLoop (es.map itemText) m = .ok (m ++ es) := by
  induction es with
  | nil => intro m _ _ _; simp [pairLoop]
  | cons e es ih =>
    intro m hd hk hv
    simp only [List.map_cons, pairLoop]
    rw [parsePair_item m e (hk e (by simp)) (hv e (by simp))]
    have hf : e.1 ∉ m.map Prod.fst := by
      rw [List.map_append, List.nodup_append] at hd
      intro hm
      exact hd.2.2 _ hm _ (by simp) rfl
    rw [Res.bind_ok, mset_fresh m _ _ hf, ih (m ++ [e]) (by simpa using hd) (fun x hx => hk x (by simp [hx]))
      (fun x hx => hv x (by simp [hx]))]
    simp

/-- Every argument map survives `SemicolonString` and `ParseArgs`. -/
theorem parseArgs_semi (a : Args) (h : ArgMap a) : parseArgs (semicolonString a) = .ok a := by
  cases a with
  | nil => simp [parseArgs, semicolonString, index]
  | cons e es =>
    have hitems : semicolonString (e :: es) =
        0x3b :: (itemText e ++ ((es.map itemText).map (fun t => (0x3b : UInt8) :: t)).flatten) := by
      simp only [semicolonString, List.map_cons, List.flatten_cons, semiItem_eq, List.map_map, List.cons_append]
      congr 3
      · exact List.map_congr_left fun x _ => semiItem_eq x
    have hall : ∀ x ∈ itemText e :: es.map itemText, ArgText x := by
      intro x hx
      rw [← List.map_cons, List.mem_map] at hx
      obtain ⟨y, hy, rfl⟩ := hx
      exact itemText_argText (h.keys y hy) (h.values y hy)
    have hne : ∀ x ∈ itemText e :: es.map itemText, x ≠ [] := by
      intro x hx
      rw [← List.map_cons, List.mem_map] at hx
      obtain ⟨y, hy, rfl⟩ := hx
      exact itemText_ne (h.keys y hy)
    have hp := parseList_items (itemText e) (es.map itemText) hall hne
    generalize hT : itemText e ++ ((es.map itemText).map (fun t => (0x3b : UInt8) :: t)).flatten = T at hp hitems
    have htrim : trimSpace T = T := by
      have hu : ∀ x ∈ itemText e :: es.map itemText, IsUtf8 x := fun x hx => argText_isUtf8 (hall x hx)
      rw [← hT]
      refine trimSpace_black ((argText_head (hall _ (by simp)) (hne _ (by simp))).append
        (joined_utf8 0x3b (by decide) _ fun x hx => hu x (List.mem_cons_of_mem _ hx)))
        (joined_black 0x3b (by decide) _ _ (hu _ (by simp)) (fun x hx => hu x (List.mem_cons_of_mem _ hx)) ?_)
      intro x hx
      have hm := List.mem_of_getLast? hx
      exact argText_last (hall x hm) (hne x hm)
    rw [hitems]
    have hidx : index 0x3b ((0x3b : UInt8) :: T) = 0 := by simp [index]
    simp only [parseArgs, hidx]
    rw [if_neg (by omega)]
    have := goSlice_suffix [(0x3b : UInt8)] T 1 rfl
    have hs : goSlice ((0x3b : UInt8) :: T) (0 + 1) ((0x3b : UInt8) :: T).length = .ok T := by simpa using this
    rw [hs, Res.bind_ok]
    simp only [parseArgsPairs]
    rw [htrim, hp, ← List.map_cons, pairLoop_items (e :: es) [] (by simpa using h.distinct) h.keys h.values]
    simp

end Verif.Sips
