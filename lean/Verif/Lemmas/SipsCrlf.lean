import Verif.Lemmas.SipsPanic
import Verif.Lemmas.SipsTrip
/-! # Argument lists on lines of their own -/
namespace Verif.Sips
open Verif.Spec.Sips Verif.Spec Verif.Str

theorem dropWhile_chars (p : Char → Bool) (a cs : List Char) (ha : ∀ c ∈ a, p c = true) (hcs : ∀ c, cs.head? = some c → p c = false) :
    (a ++ cs).dropWhile p = cs := by
  induction a with
  | nil =>
    cases cs with
    | nil => rfl
    | cons c cs => rw [List.nil_append, List.dropWhile_cons, if_neg (by simp [hcs c rfl])]
  | cons c a ih =>
    rw [List.cons_append, List.dropWhile_cons, if_pos (ha c (by simp))]
    exact ih fun x hx => ha x (by simp [hx])

/-- A line break behind the text is removed. -/
theorem trimSpace_break {s z : Bytes} (h1 : HeadBlack s) (h2 : LastBlack s) (hz : z = [13] ∨ z = [13, 10]) : trimSpace (s ++ z) = s := by
  obtain ⟨cs, c, rfl, k1, k2⟩ := h1
  obtain ⟨ds, d, e, l1, l2⟩ := h2
  have := utf8_inj e
  subst this
  have hcs : ∀ z : List Char, (cs ++ z).dropWhile (fun c => decide (White c)) = cs ++ z := by
    intro z
    refine dropWhile_chars _ [] (cs ++ z) (by simp) fun x hx => ?_
    rw [List.head?_append, k1] at hx
    obtain rfl := Option.some.inj hx
    simpa using k2
  have hasc : ∀ b ∈ z, b < 0x80 := by rcases hz with rfl | rfl <;> decide
  have hw : ∀ c ∈ (asChars z).reverse, decide (White c) = true := by
    rcases hz with rfl | rfl <;> decide
  rw [← utf8_asChars z hasc, ← utf8_append, trimSpace_utf8, hcs, List.reverse_append, dropWhile_chars _ _ _ hw, List.reverse_reverse]
  intro x hx
  rw [List.head?_reverse, l1] at hx
  obtain rfl := Option.some.inj hx
  simpa using l2

theorem listStep_lf (st : ListSt) (he : st.escape = false) (hq : st.quote = false) :
    listStep st 0x0a = { st with list := st.list ++ [trimSpace st.b], b := [] } := by
  simp [listStep, he, hq]

/-- Lines in front of the last one. -/
theorem foldl_crlf (t : Bytes) (ts : List Bytes) (h : ∀ x ∈ ts, ArgText x ∧ x ≠ []) : ∀ st : ListSt, st.escape = false → st.quote = false → st.b = [] →
    (runes ((ts.map (fun t => t ++ [13, 10])).flatten ++ t)).foldl listStep st =
      (runes t).foldl listStep { st with list := st.list ++ ts } := by
  induction ts with
  | nil => intro st _ _ _; simp
  | cons x ts ih =>
    intro st he hq hb
    obtain ⟨hx, hne⟩ := h x (by simp)
    rw [List.map_cons, List.flatten_cons, List.append_assoc, List.append_assoc, listStep_text hx _ _ he hq,
      show ([13, 10] : Bytes) ++ ((ts.map (fun t => t ++ [13, 10])).flatten ++ t) = 13 :: 10 :: ((ts.map (fun t => t ++ [13, 10])).flatten ++ t) from rfl,
      runes_ascii_cons (by decide), runes_ascii_cons (by decide), List.foldl_cons, List.foldl_cons]
    have h13 := listStep_plain { st with b := st.b ++ x } he hq (c := '\r') (by decide)
    rw [show ('\r').toNat = (13 : UInt8).toNat from rfl] at h13
    rw [h13, show (10 : UInt8).toNat = 0x0a from rfl, listStep_lf _ (by exact he) (by exact hq), hb]
    have ht : trimSpace ([] ++ x ++ String.utf8EncodeChar '\r') = x :=
      trimSpace_break (s := [] ++ x) (argText_head hx hne) (argText_last hx hne) (Or.inl (by decide))
    rw [ih (fun y hy => h y (by simp [hy])) _ (by exact he) (by exact hq) rfl]
    simp only [ht]
    simp

/-- The text of an argument on its line. -/
def lineText (e : Bytes × Bytes) : Bytes := e.1 ++ [0x3d] ++ e.2

theorem lineText_ok {e : Bytes × Bytes} (hk : ArgKey e.1) (hv : ArgText e.2) : ArgText (lineText e) ∧ lineText e ≠ [] := by
  refine ⟨?_, by simp [lineText]⟩
  by_cases h : e.2 = []
  · have := argText_append hk.toArgText (b := [0x3d]) (argText_ascii (by simp [Printable]) (by simp) (by simp)) hk.nonempty (by simp) [] (by simp)
    simpa [lineText, h, utf8] using this
  · exact argText_append hk.toArgText hv hk.nonempty h ['='] (by decide)

/-- The lines `CRLFString` writes are the elements `ParseList` finds. -/
theorem parseList_crlf (a : Args) (h : ArgMap a) : parseList (trimSpace (crlfString a)) = a.map lineText := by
  rcases List.eq_nil_or_concat a with rfl | ⟨i, e, rfl⟩
  · decide
  rw [List.concat_eq_append] at h ⊢
  have hok : ∀ x ∈ (i ++ [e]).map lineText, ArgText x ∧ x ≠ [] := by
    intro x hx
    obtain ⟨y, hy, rfl⟩ := List.mem_map.1 hx
    exact lineText_ok (h.keys y hy) (h.values y hy)
  rw [List.map_append, List.map_cons, List.map_nil] at hok ⊢
  have hcr : crlfString (i ++ [e]) = (((i.map lineText).map (fun t => t ++ [13, 10])).flatten ++ lineText e) ++ [13, 10] := by
    rw [crlfString, if_neg (by simp), List.map_append, List.flatten_append, List.map_map]
    simp only [List.map_cons, List.map_nil, List.flatten_cons, List.flatten_nil, List.append_nil, lineText, List.append_assoc, Function.comp_def]
  generalize i.map lineText = ts at *
  generalize lineText e = t at *
  have hu : IsUtf8 (ts.map (fun t => t ++ [13, 10])).flatten := by
    have : ∀ x ∈ ts, IsUtf8 x := fun x hx => argText_isUtf8 (hok x (by simp [hx])).1
    clear hok hcr
    induction ts with
    | nil => exact ⟨[], rfl⟩
    | cons x ts ih =>
      rw [List.map_cons, List.flatten_cons]
      exact ((this x (by simp)).append (isUtf8_ascii _ (by decide))).append (ih fun y hy => this y (by simp [hy]))
  obtain ⟨ht, hne⟩ := hok t (by simp)
  have hhead : HeadBlack ((ts.map (fun t => t ++ [13, 10])).flatten ++ t) := by
    cases ts with
    | nil => exact argText_head ht hne
    | cons x ts =>
      rw [List.map_cons, List.flatten_cons, List.append_assoc, List.append_assoc]
      obtain ⟨hx, hxne⟩ := hok x (by simp)
      refine (argText_head hx hxne).append ?_
      have : ∀ x ∈ ts, IsUtf8 x := fun x hx => argText_isUtf8 (hok x (by simp [hx])).1
      refine (isUtf8_ascii _ (by decide)).append (IsUtf8.append ?_ (argText_isUtf8 ht))
      clear hok hcr hu
      induction ts with
      | nil => exact ⟨[], rfl⟩
      | cons x ts ih =>
        rw [List.map_cons, List.flatten_cons]
        exact ((this x (by simp)).append (isUtf8_ascii _ (by decide))).append (ih fun y hy => this y (by simp [hy]))
  rw [hcr, trimSpace_break hhead ((argText_last ht hne).append hu) (Or.inr rfl)]
  have := foldl_crlf t ts (fun x hx => hok x (by simp [hx])) {} rfl rfl rfl
  simp only [parseList]
  have e2 := listStep_text ht [] { list := ts } rfl rfl
  rw [List.append_nil] at e2
  rw [this, show ({ ({} : ListSt) with list := ({} : ListSt).list ++ ts } : ListSt) = { list := ts } by simp, e2,
    show runes [] = [] from rfl]
  simp [hne, argText_trim ht]

end Verif.Sips
