import Verif.Spec.AmfSize
import Verif.Spec.AmfAccept
import Verif.Lemmas.Amf3Peer
/-!
# Sizes of the values that bytes denote
-/
namespace Verif.Amf
open Verif.Spec.Amf Verif.Spec.Amf3

theorem countF_snoc (l : List (Bytes × Val)) (k : Bytes) (v : Val) : countF (l ++ [(k, v)]) = countF l + count v := by
  induction l with
  | nil => simp [countF]
  | cons a l ih => obtain ⟨j, w⟩ := a; simp only [List.cons_append, countF, ih]; omega

theorem mapSet_keys (l : List (Bytes × Val)) (k : Bytes) (v : Val) (h : (l.map Prod.fst).Nodup) : ((mapSet l k v).map Prod.fst).Nodup := by
  unfold mapSet
  split
  · have : (l.map fun e => if e.1 = k then (k, v) else e).map Prod.fst = l.map Prod.fst := by
      rw [List.map_map]
      refine List.map_congr_left fun e _ => ?_
      simp only [Function.comp]
      split <;> simp_all
    rw [this]; exact h
  · rename_i hn
    rw [List.map_append, List.nodup_append]
    refine ⟨h, by simp, ?_⟩
    intro x hx y hy
    simp only [List.map_cons, List.map_nil, List.mem_singleton] at hy
    subst hy
    intro e
    subst e
    obtain ⟨e, he, rfl⟩ := List.mem_map.1 hx
    exact hn (List.any_eq_true.2 ⟨e, he, by simp⟩)

theorem countF_set (l : List (Bytes × Val)) (k : Bytes) (v : Val) (h : (l.map Prod.fst).Nodup) : countF (mapSet l k v) ≤ countF l + count v := by
  unfold mapSet
  split
  · rename_i hx
    clear hx
    induction l with
    | nil => simp [countF]
    | cons a l ih =>
      obtain ⟨j, w⟩ := a
      simp only [List.map_cons, List.nodup_cons] at h
      by_cases e : j = k
      · subst e
        have : (l.map fun e => if e.1 = j then (j, v) else e) = l := by
          conv => rhs; rw [← List.map_id l]
          refine List.map_congr_left fun e he => ?_
          have : e.1 ≠ j := fun hj => h.1 (hj ▸ List.mem_map_of_mem he)
          simp [this]
        simp only [List.map_cons, if_true, this, countF]; omega
      · have := ih h.2
        simp only [List.map_cons, e, if_false, countF]; omega
  · rw [countF_snoc]; exact Nat.le_refl _

theorem countF_lastWins (l : List (Bytes × Val)) : countF (lastWins l) ≤ countF l := by
  have h : ∀ r : List (Bytes × Val), ((lastWins r.reverse).map Prod.fst).Nodup ∧ countF (lastWins r.reverse) ≤ countF r.reverse := by
    intro r
    induction r with
    | nil => exact ⟨by simp [lastWins], by simp [lastWins, countF]⟩
    | cons a r ih =>
      obtain ⟨k, v⟩ := a
      rw [List.reverse_cons, Amf0.lastWins_snoc, countF_snoc]
      refine ⟨mapSet_keys _ _ _ ih.1, ?_⟩
      have := countF_set (lastWins r.reverse) k v ih.1
      omega
  simpa using (h l.reverse).2

theorem countF_zip (ks : List Bytes) (vs : List Val) : countF (ks.zip vs) ≤ countL vs := by
  induction ks generalizing vs with
  | nil => simp [countF]
  | cons k ks ih =>
    cases vs with
    | nil => simp [countF]
    | cons v vs => simp only [List.zip_cons_cons, countF, countL]; have := ih vs; omega

/-- What can be referred to is a single value. -/
def Leaf (t : Seen) : Prop := ∀ v, some v ∈ t.vals → count v = 1

theorem leaf_str {t b x t'} (h : ReadStr t b x t') (hl : Leaf t) : Leaf t' := by cases h <;> exact hl

theorem leaf_names {t b x t'} (h : ReadNames t b x t') (hl : Leaf t) : Leaf t' := by
  induction h with
  | nil => exact hl
  | cons h1 _ ih => exact ih (leaf_str h1 hl)

theorem leaf_class {t b f x t'} (h : ReadClass t b f x t') (hl : Leaf t) : Leaf t' := by
  cases h with
  | ref => exact hl
  | new _ _ h1 h2 => exact fun v hv => leaf_names h2 (leaf_str h1 hl) v hv

theorem leaf_none {t} (hl : Leaf t) : Leaf (t.add none) := by
  intro v hv; exact hl v (by simpa [Seen.add] using hv)

theorem leaf_some {t v} (hl : Leaf t) (h : count v = 1) : Leaf (t.add (some v)) := by
  intro w hw
  simp only [Seen.add, List.mem_append, List.mem_singleton, Option.some.injEq] at hw
  rcases hw with hw | rfl
  · exact hl w hw
  · exact h

theorem count_blob {m x v} (h : Blob m x v) : count v = 1 := by cases h <;> rfl

mutual
theorem count_read {strict t b v t'} : Read strict t b v t' → Leaf t → count v ≤ b.length ∧ Leaf t'
  | .undefined, h => ⟨by simp [count], h⟩
  | .null, h => ⟨by simp [count], h⟩
  | .no, h => ⟨by simp [count], h⟩
  | .yes, h => ⟨by simp [count], h⟩
  | .int _ _, h => ⟨by simp [count], h⟩
  | .double _, h => ⟨by simp [count], h⟩
  | .str hs, h => ⟨by simp [count], leaf_str hs h⟩
  | .blob _ _ hb, h => ⟨by simp [count_blob hb], leaf_some h (count_blob hb)⟩
  | .empty _ _ hb, h => ⟨by simp [count_blob hb], h⟩
  | .cut _ _ _ _ hb, h => ⟨by simp [count_blob hb], leaf_some h (count_blob hb)⟩
  | .date _ _ _, h => ⟨by simp [count], leaf_some h rfl⟩
  | .again _ hv _, h => ⟨by simp [h _ (List.mem_of_getElem? hv)], h⟩
  | .lost _ _ _ _ hv, h => ⟨by rcases hv with rfl | ⟨_, rfl⟩ <;> simp [count, countL, countF], h⟩
  | .stray _ _ hv, h => ⟨by simp [h _ (List.mem_of_getElem? hv)], h⟩
  | .arr (named := named) _ h1 h2, h => by
    have i1 := count_members h1 (leaf_none h)
    have i2 := count_readAll h2 i1.2
    have := countF_lastWins named
    refine ⟨?_, i2.2⟩
    simp only [count, List.length_cons, List.length_append]; omega
  | .obj (ks := ks) (vs := vs) h1 _ h2 _, h => by
    have i := count_readAll h2 (leaf_none (leaf_class h1 h))
    have := countF_lastWins (ks.zip vs)
    have := countF_zip ks vs
    refine ⟨?_, i.2⟩
    simp only [count, List.length_cons, List.length_append]; omega
theorem count_readAll {strict t b vs t'} : ReadAll strict t b vs t' → Leaf t → countL vs ≤ b.length ∧ Leaf t'
  | .nil, h => ⟨by simp [countL], h⟩
  | .cons h1 h2, h => by
    have i1 := count_read h1 h
    have i2 := count_readAll h2 i1.2
    exact ⟨by simp only [countL, List.length_append]; omega, i2.2⟩
theorem count_members {strict t b l t'} : ReadMembers strict t b l t' → Leaf t → countF l ≤ b.length ∧ Leaf t'
  | .done hs, h => ⟨by simp [countF], leaf_str hs h⟩
  | .more hs _ h1 h2, h => by
    have i1 := count_read h1 (leaf_str hs h)
    have i2 := count_members h2 i1.2
    exact ⟨by simp only [countF, List.length_append]; omega, i2.2⟩
end

open Verif.Spec.Amf0 in
mutual
theorem count_read0 {strict t b v t'} : Read0 strict t b v t' → Leaf t.amf3 → count v ≤ b.length ∧ Leaf t'.amf3
  | .number _, h => ⟨by simp [count], h⟩
  | .bool _ _, h => ⟨by simp [count], h⟩
  | .str _, h => ⟨by simp [count], h⟩
  | .obj (l := l) h1, h => by
    have i := count_fields h1 h
    have := countF_lastWins l
    exact ⟨by simp only [count, List.length_cons]; omega, i.2⟩
  | .null, h => ⟨by simp [count], h⟩
  | .undefined, h => ⟨by simp [count], h⟩
  | .ref _ _, h => ⟨by simp [count], h⟩
  | .wrong _ _ _, h => ⟨by simp [count, countL], h⟩
  | .shifted _ _ _ hv, h => ⟨by rcases hv with rfl | rfl | rfl <;> simp [count, countL, countF], h⟩
  | .ecma (l := l) _ h1, h => by
    have i := count_fields h1 h
    have := countF_lastWins l
    exact ⟨by simp only [count, List.length_cons, List.length_append]; omega, i.2⟩
  | .strictArr _ h1, h => by
    have i := count_readAll0 h1 h
    exact ⟨by simp only [count, List.length_cons, List.length_append]; omega, i.2⟩
  | .date _ _, h => ⟨by simp [count], h⟩
  | .longStr _, h => ⟨by simp [count], h⟩
  | .unsupported, h => ⟨by simp [count], h⟩
  | .xml _, h => ⟨by simp [count], h⟩
  | .typed (l := l) _ h1, h => by
    have i := count_fields h1 h
    have := countF_lastWins l
    exact ⟨by simp only [count, List.length_cons, List.length_append]; omega, i.2⟩
  | .amf3 h1, h => by
    have i := count_read h1 h
    exact ⟨by simp only [List.length_cons]; omega, i.2⟩
theorem count_readAll0 {strict t b vs t'} : ReadAll0 strict t b vs t' → Leaf t.amf3 → countL vs ≤ b.length ∧ Leaf t'.amf3
  | .nil, h => ⟨by simp [countL], h⟩
  | .cons h1 h2, h => by
    have i1 := count_read0 h1 h
    have i2 := count_readAll0 h2 i1.2
    exact ⟨by simp only [countL, List.length_append]; omega, i2.2⟩
theorem count_fields {strict t b l t'} : ReadFields strict t b l t' → Leaf t.amf3 → countF l ≤ b.length ∧ Leaf t'.amf3
  | .done, h => ⟨by simp [countF], h⟩
  | .more _ _ h1 h2, h => by
    have i1 := count_read0 h1 h
    have i2 := count_fields h2 i1.2
    exact ⟨by simp only [countF, List.length_append]; omega, i2.2⟩
end

/-! ## Lengths -/

theorem fitsF_iff {n} (l : List (Bytes × Val)) : FitsF n l ↔ ∀ e ∈ l, e.1.length ≤ n ∧ Fits n e.2 := by
  induction l with
  | nil => simp [FitsF]
  | cons a l ih => obtain ⟨k, v⟩ := a; simp [FitsF, ih, and_assoc]

theorem lastWins_mem (l : List (Bytes × Val)) (e : Bytes × Val) (h : e ∈ lastWins l) : e ∈ l := by
  unfold lastWins at h
  obtain ⟨k, hk, rfl⟩ := List.mem_map.1 h
  rw [List.mem_eraseDups] at hk
  obtain ⟨a, ha, rfl⟩ := List.mem_map.1 hk
  rcases hf : l.reverse.find? fun e => e.1 == a.1 with _ | b
  · exact absurd (List.find?_eq_none.1 hf a (by simpa using ha)) (by simp)
  · have h1 := List.find?_some hf
    have h2 := List.mem_of_find?_eq_some hf
    simp only [beq_iff_eq] at h1
    rw [← h1] at hf ⊢
    rw [hf]
    exact List.mem_reverse.1 h2

theorem fitsF_lastWins {n l} (h : FitsF n l) : FitsF n (lastWins l) :=
  (fitsF_iff _).2 fun e he => (fitsF_iff _).1 h e (lastWins_mem l e he)

/-- The tables hold nothing longer than `n`. -/
structure Tab (n : Nat) (t : Seen) : Prop where
  strs : ∀ x ∈ t.strs, x.length ≤ n
  vals : ∀ v, some v ∈ t.vals → Fits n v
  names : ∀ c ∈ t.classes, ∀ k ∈ c.2, k.length ≤ n

theorem tab_str {n t b x t'} (h : ReadStr t b x t') (ht : Tab n t) (hb : b.length ≤ n) : Tab n t' ∧ x.length ≤ n := by
  cases h with
  | empty => exact ⟨ht, Nat.zero_le _⟩
  | ref _ h => exact ⟨ht, ht.strs _ (List.mem_of_getElem? h)⟩
  | full =>
    have hx : x.length ≤ n := by simp only [List.length_append] at hb; omega
    refine ⟨⟨?_, ht.vals, ht.names⟩, hx⟩
    intro y hy
    simp only [List.mem_append, List.mem_singleton] at hy
    rcases hy with hy | rfl
    · exact ht.strs y hy
    · exact hx

theorem tab_names {n t b ks t'} (h : ReadNames t b ks t') (ht : Tab n t) (hb : b.length ≤ n) : Tab n t' ∧ ∀ k ∈ ks, k.length ≤ n := by
  induction h with
  | nil => exact ⟨ht, by simp⟩
  | cons h1 _ ih =>
    simp only [List.length_append] at hb
    obtain ⟨i1, i2⟩ := tab_str h1 ht (by omega)
    obtain ⟨j1, j2⟩ := ih i1 (by omega)
    exact ⟨j1, by simpa using ⟨i2, j2⟩⟩

theorem tab_class {n t b f ks t'} (h : ReadClass t b f ks t') (ht : Tab n t) (hb : b.length ≤ n) : Tab n t' ∧ ∀ k ∈ ks, k.length ≤ n := by
  cases h with
  | ref _ h => exact ⟨ht, ht.names _ (List.mem_of_getElem? h)⟩
  | new _ _ h1 h2 =>
    simp only [List.length_append] at hb
    obtain ⟨i1, _⟩ := tab_str h1 ht (by omega)
    obtain ⟨j1, j2⟩ := tab_names h2 i1 (by omega)
    refine ⟨⟨j1.strs, j1.vals, ?_⟩, j2⟩
    intro c hc
    simp only [List.mem_append, List.mem_singleton] at hc
    rcases hc with hc | rfl
    · exact j1.names c hc
    · exact j2

theorem tab_none {n t} (h : Tab n t) : Tab n (t.add none) :=
  ⟨h.strs, fun v hv => h.vals v (by simpa [Seen.add] using hv), h.names⟩

theorem tab_some {n t v} (h : Tab n t) (hv : Fits n v) : Tab n (t.add (some v)) := by
  refine ⟨h.strs, fun w hw => ?_, h.names⟩
  simp only [Seen.add, List.mem_append, List.mem_singleton, Option.some.injEq] at hw
  rcases hw with hw | rfl
  · exact h.vals w hw
  · exact hv

theorem fits_blob {n m x v} (h : Blob m x v) (hx : x.length ≤ n) : Fits n v := by cases h <;> exact hx

theorem fitsF_zip {n} (ks : List Bytes) (vs : List Val) (hk : ∀ k ∈ ks, k.length ≤ n) (hv : FitsL n vs) : FitsF n (ks.zip vs) := by
  induction ks generalizing vs with
  | nil => simp [FitsF]
  | cons k ks ih =>
    cases vs with
    | nil => simp [FitsF]
    | cons v vs =>
      simp only [List.mem_cons, forall_eq_or_imp] at hk
      exact ⟨hk.1, hv.1, ih vs hk.2 hv.2⟩

mutual
theorem fits_read {n t b v t'} : Read true t b v t' → Tab n t → b.length ≤ n → Fits n v ∧ Tab n t'
  | .undefined, h, _ => ⟨trivial, h⟩
  | .null, h, _ => ⟨trivial, h⟩
  | .no, h, _ => ⟨trivial, h⟩
  | .yes, h, _ => ⟨trivial, h⟩
  | .int _ _, h, _ => ⟨trivial, h⟩
  | .double _, h, _ => ⟨trivial, h⟩
  | .str hs, h, hb => by
    have i := tab_str hs h (by simp only [List.length_cons] at hb; omega)
    exact ⟨i.2, i.1⟩
  | .blob _ _ hv, h, hb => by
    have i := fits_blob (n := n) hv (by simp only [List.length_cons, List.length_append] at hb; omega)
    exact ⟨i, tab_some h i⟩
  | .date _ _ _, h, _ => ⟨trivial, tab_some h trivial⟩
  | .again _ hv _, h, _ => ⟨h.vals _ (List.mem_of_getElem? hv), h⟩
  | .arr _ h1 h2, h, hb => by
    simp only [List.length_cons, List.length_append] at hb
    have i1 := fits_members h1 (tab_none h) (by omega)
    have i2 := fits_readAll h2 i1.2 (by omega)
    exact ⟨⟨i2.1, fitsF_lastWins i1.1⟩, i2.2⟩
  | .obj h1 _ h2 _, h, hb => by
    simp only [List.length_cons, List.length_append] at hb
    have i1 := tab_class h1 h (by omega)
    have i2 := fits_readAll h2 (tab_none i1.1) (by omega)
    exact ⟨fitsF_lastWins (fitsF_zip _ _ i1.2 i2.1), i2.2⟩
theorem fits_readAll {n t b vs t'} : ReadAll true t b vs t' → Tab n t → b.length ≤ n → FitsL n vs ∧ Tab n t'
  | .nil, h, _ => ⟨trivial, h⟩
  | .cons h1 h2, h, hb => by
    simp only [List.length_append] at hb
    have i1 := fits_read h1 h (by omega)
    have i2 := fits_readAll h2 i1.2 (by omega)
    exact ⟨⟨i1.1, i2.1⟩, i2.2⟩
theorem fits_members {n t b l t'} : ReadMembers true t b l t' → Tab n t → b.length ≤ n → FitsF n l ∧ Tab n t'
  | .done hs, h, hb => ⟨trivial, (tab_str hs h hb).1⟩
  | .more hs _ h1 h2, h, hb => by
    simp only [List.length_append] at hb
    have i0 := tab_str hs h (by omega)
    have i1 := fits_read h1 i0.1 (by omega)
    have i2 := fits_members h2 i1.2 (by omega)
    exact ⟨⟨i0.2, i1.1, i2.1⟩, i2.2⟩
end

open Verif.Spec.Amf0 in
mutual
/-- Without AMF3 parts (marker 17) this holds for whatever the decoder accepts. -/
theorem fits_read0 {strict n t b v t'} : Read0 strict t b v t' → strict = true ∨ 17 ∉ b → Tab n t.amf3 → b.length ≤ n → Fits n v ∧ Tab n t'.amf3
  | .number _, _, h, _ => ⟨trivial, h⟩
  | .bool _ _, _, h, _ => ⟨trivial, h⟩
  | .str _, _, h, hb => ⟨by simp only [Spec.Amf0.utf8, List.length_cons, List.length_append] at hb; simp only [Fits]; omega, h⟩
  | .obj h1, hs, h, hb => by
    simp only [List.length_cons] at hb
    have i := fits_fields h1 (hs.imp_right (by simp)) h (by omega)
    exact ⟨fitsF_lastWins i.1, i.2⟩
  | .null, _, h, _ => ⟨trivial, h⟩
  | .undefined, _, h, _ => ⟨trivial, h⟩
  | .ref _ _, _, h, _ => ⟨trivial, h⟩
  | .wrong _ _ _, _, h, _ => ⟨trivial, h⟩
  | .shifted _ _ _ hv, _, h, _ => ⟨by rcases hv with rfl | rfl | rfl <;> simp [Fits, Spec.Amf.FitsL, FitsF], h⟩
  | .ecma _ h1, hs, h, hb => by
    simp only [List.length_cons, List.length_append] at hb
    have i := fits_fields h1 (hs.imp_right (by simp +contextual)) h (by omega)
    exact ⟨fitsF_lastWins i.1, i.2⟩
  | .strictArr _ h1, hs, h, hb => by
    simp only [List.length_cons, List.length_append] at hb
    exact fits_readAll0 h1 (hs.imp_right (by simp +contextual)) h (by omega)
  | .date _ _, _, h, _ => ⟨trivial, h⟩
  | .longStr _, _, h, hb => ⟨by simp only [utf8Long, List.length_cons, List.length_append] at hb; simp only [Fits]; omega, h⟩
  | .unsupported, _, h, _ => ⟨trivial, h⟩
  | .xml _, _, h, hb => ⟨by simp only [utf8Long, List.length_cons, List.length_append] at hb; simp only [Fits]; omega, h⟩
  | .typed _ h1, hs, h, hb => by
    simp only [Spec.Amf0.utf8, List.length_cons, List.length_append] at hb
    have i := fits_fields h1 (hs.imp_right (by simp +contextual)) h (by omega)
    exact ⟨⟨by omega, fitsF_lastWins i.1⟩, i.2⟩
  | .amf3 h1, hs, h, hb => by
    simp only [List.length_cons] at hb
    rcases hs with rfl | hs
    · exact fits_read h1 h (by omega)
    · exact absurd (List.mem_cons_self) hs
theorem fits_readAll0 {strict n t b vs t'} : ReadAll0 strict t b vs t' → strict = true ∨ 17 ∉ b → Tab n t.amf3 → b.length ≤ n → FitsL n vs ∧ Tab n t'.amf3
  | .nil, _, h, _ => ⟨trivial, h⟩
  | .cons h1 h2, hs, h, hb => by
    simp only [List.length_append] at hb
    have i1 := fits_read0 h1 (hs.imp_right (by simp +contextual)) h (by omega)
    have i2 := fits_readAll0 h2 (hs.imp_right (by simp +contextual)) i1.2 (by omega)
    exact ⟨⟨i1.1, i2.1⟩, i2.2⟩
theorem fits_fields {strict n t b l t'} : ReadFields strict t b l t' → strict = true ∨ 17 ∉ b → Tab n t.amf3 → b.length ≤ n → FitsF n l ∧ Tab n t'.amf3
  | .done, _, h, _ => ⟨trivial, h⟩
  | .more _ _ h1 h2, hs, h, hb => by
    simp only [Spec.Amf0.utf8, List.length_append] at hb
    have i1 := fits_read0 h1 (hs.imp_right (by simp +contextual)) h (by omega)
    have i2 := fits_fields h2 (hs.imp_right (by simp +contextual)) i1.2 (by omega)
    exact ⟨⟨by omega, i1.1, i2.1⟩, i2.2⟩
end

end Verif.Amf
