import Verif.Model.SipsSlice
import Verif.Props.SipsForward
/-!
# Property C160: the header bytes and the body of a received message are separate

`Verif/Model/SipsSlice.lean` has the arrays behind the two slices.
-/
namespace Verif.Props
open Verif Verif.Str Verif.Sips Verif.Spec Verif.Spec.Sips

/-- The slice lies in its array. -/
def Inside (s : Slice) (m : Arrays) : Prop :=
  s.len ≤ s.cap ∧ s.off + s.cap ≤ ((m[s.arr]?).getD []).length

theorem slice_set_same (m : Arrays) (i : Nat) (a : Bytes) (h : i < m.length) : ((m.set i a)[i]?).getD [] = a := by
  simp [h]

theorem slice_append (spare : Nat) (s : Slice) (x : Bytes) (m : Arrays) (h : Inside s m) :
    Inside (s.append spare x m).1 (s.append spare x m).2 ∧ (s.append spare x m).1.get (s.append spare x m).2 = s.get m ++ x := by
  obtain ⟨arr, off, len, cap⟩ := s
  obtain ⟨h1, h2⟩ := h
  simp only at h1 h2
  unfold Slice.append
  by_cases hc : len + x.length ≤ cap
  · rw [if_pos hc]
    by_cases ha : arr < m.length
    · refine ⟨⟨hc, ?_⟩, ?_⟩
      · simp only [slice_set_same _ _ _ ha]
        simp only [List.length_append, List.length_take, List.length_drop]
        omega
      · simp only [Slice.get, slice_set_same _ _ _ ha]
        generalize ((m[arr]?).getD []) = a at *
        rw [List.append_assoc, List.drop_append_of_le_length (by simp; omega), List.take_append, List.take_append]
        have e1 : (List.drop off (List.take (off + len) a)).length = len := by simp; omega
        rw [e1, show len + x.length - len = x.length by omega, List.take_of_length_le (by omega), List.take_length, Nat.sub_self]
        simp [List.drop_take]
    · have e : (m[arr]?).getD [] = [] := by simp [List.getElem?_eq_none (Nat.le_of_not_lt ha)]
      rw [e] at h2
      simp only [List.length_nil, Nat.le_zero, Nat.add_eq_zero_iff] at h2
      have hx : x = [] := List.eq_nil_of_length_eq_zero (by omega)
      subst hx
      have hm : ∀ a : Bytes, m.set arr a = m := fun a => List.set_eq_of_length_le (Nat.le_of_not_lt ha)
      simp only [hm]
      refine ⟨⟨hc, by simp only [e]; simp; omega⟩, ?_⟩
      simp [Slice.get, e]
  · rw [if_neg hc]
    have hl : (Slice.get ⟨arr, off, len, cap⟩ m).length = len := by simp [Slice.get]; omega
    refine ⟨⟨by simp, by simp [hl]; omega⟩, ?_⟩
    rw [Slice.get]
    simp only [List.getElem?_concat_length, Option.getD_some, List.drop_zero]
    exact List.take_left' (by simp [hl])

theorem inside_nil (m : Arrays) : Inside ⟨0, 0, 0, 0⟩ m := ⟨Nat.le_refl _, Nat.zero_le _⟩

theorem buildBuffer_get (spare : Nat) (xs : List Bytes) (s : Slice) (m : Arrays) (h : Inside s m) :
    Inside (buildBuffer spare xs s m).1 (buildBuffer spare xs s m).2 ∧
      (buildBuffer spare xs s m).1.get (buildBuffer spare xs s m).2 = s.get m ++ xs.flatten := by
  induction xs generalizing s m with
  | nil => exact ⟨h, by simp [buildBuffer]⟩
  | cons x xs ih =>
    obtain ⟨h1, h2⟩ := slice_append spare s x m h
    obtain ⟨h3, h4⟩ := ih _ _ h1
    exact ⟨h3, by rw [buildBuffer]; simp only; rw [h4, h2]; simp⟩

/-- The two slices are the two halves of one window of one array; the first may be extended over the second. -/
theorem storeMessage_shape (spare : Nat) (pieces : List Bytes) (c p : Bytes) (m : Arrays) (hp : pieces.flatten = c ++ p) :
    ∃ a pre post i cap m', storeMessage spare pieces c.length m = ((⟨i, pre.length, c.length, cap⟩, ⟨i, pre.length + c.length, p.length, cap - c.length⟩), m') ∧
      (m'[i]?).getD [] = a ∧ a = pre ++ c ++ p ++ post ∧ c.length + p.length ≤ cap ∧ cap ≤ c.length + p.length + post.length := by
  obtain ⟨⟨h1, h2⟩, h3⟩ := buildBuffer_get spare pieces ⟨0, 0, 0, 0⟩ m (inside_nil m)
  rw [storeMessage]
  generalize buildBuffer spare pieces ⟨0, 0, 0, 0⟩ m = q at *
  obtain ⟨⟨i, off, len, cap⟩, m'⟩ := q
  simp only at h1 h2
  simp only [Slice.get, hp, List.take_zero, List.nil_append] at h3
  generalize ha : (m'[i]?).getD [] = a at *
  have hl : len = c.length + p.length := by
    have := congrArg List.length h3
    simp at this; omega
  have ho : (a.take off).length = off := by simp; omega
  refine ⟨a, a.take off, a.drop (off + len), i, cap, m', ?_, ha, ?_, by omega, by simp; omega⟩
  · simp only [layers, ho, hl, Nat.add_sub_cancel_left]
  · rw [List.append_assoc (a.take off), ← h3, List.append_assoc]
    rw [← List.drop_drop, List.take_append_drop, List.take_append_drop]

theorem inside_len_zero {t : Slice} {m : Arrays} (ht : Inside t m) (ha : m.length ≤ t.arr) : t.len = 0 := by
  obtain ⟨h1, h2⟩ := ht
  rw [List.getElem?_eq_none ha] at h2
  simp at h2
  omega

/-- `append` does not touch what lies before the end of the slice, nor anything when there is no room. -/
theorem append_frame (spare : Nat) (s t : Slice) (x : Bytes) (m : Arrays) (hs : Inside s m) (ht : Inside t m)
    (h : t.off + t.len ≤ s.off + s.len ∨ s.cap < s.len + x.length) : t.get (s.append spare x m).2 = t.get m := by
  by_cases ha : t.arr < m.length
  · rw [Slice.append]
    split
    · rename_i hc
      have h' : t.off + t.len ≤ s.off + s.len := by omega
      simp only [Slice.get]
      by_cases he : s.arr = t.arr
      · rw [he, slice_set_same _ _ _ ha]
        obtain ⟨h1, h2⟩ := hs
        rw [he] at h2
        generalize (m[t.arr]?).getD [] = a at *
        have e : ∀ l : Bytes, (l.drop t.off).take t.len = (l.take (t.off + t.len)).drop t.off := by
          intro l; simp [List.drop_take]
        rw [e, e a, List.append_assoc, List.take_append_of_le_length (by simp; omega), List.take_take, Nat.min_eq_left h']
      · simp [he]
    · simp only [Slice.get]
      rw [List.getElem?_append_left ha]
  · simp [Slice.get, inside_len_zero ht (Nat.le_of_not_lt ha)]

theorem put_frame (s t : Slice) (k : Nat) (b : UInt8) (m : Arrays)
    (h : t.off + t.len ≤ s.off + k ∨ s.off + k < t.off) : t.get (s.put k b m) = t.get m := by
  rw [Slice.put]
  simp only [Slice.get]
  by_cases he : s.arr = t.arr
  · by_cases ha : t.arr < m.length
    · rw [he, slice_set_same _ _ _ ha]
      generalize (m[t.arr]?).getD [] = a
      rcases h with h | h
      · rw [List.drop_set, if_neg (by omega), List.take_set_of_le (by omega)]
      · rw [List.drop_set, if_pos h]
    · rw [List.set_eq_of_length_le (by omega)]
  · simp [he]

theorem put_get (s : Slice) (k : Nat) (b : UInt8) (m : Arrays) (hs : Inside s m) (hk : k < s.len) :
    s.get (s.put k b m) = (s.get m).set k b := by
  by_cases ha : s.arr < m.length
  · rw [Slice.put, Slice.get, slice_set_same _ _ _ ha, Slice.get]
    generalize (m[s.arr]?).getD [] = a
    rw [List.drop_set, if_neg (by omega), Nat.add_sub_cancel_left, List.take_set]
  · have := inside_len_zero hs (Nat.le_of_not_lt ha)
    omega

theorem get_window (m : Arrays) (i : Nat) (pre c post : Bytes) (cap : Nat) (h : (m[i]?).getD [] = pre ++ c ++ post) :
    (⟨i, pre.length, c.length, cap⟩ : Slice).get m = c := by
  simp [Slice.get, h]

/-- The two slices have the bytes of the message: what `Parse` leaves in the message, whatever the pieces in which it was read
and however much Go's `append` reserves. -/
theorem C160_views (U : Unicode) (s s' : Sip) (r r' : Rd) (hr : r.Ok) (h : parse U s r = (.ok (), s', r'))
    (spare : Nat) (pieces : List Bytes) (m : Arrays) (hp : pieces.flatten ++ r'.all = r.all) :
    let q := storeMessage spare pieces s'.contents.length m
    q.1.1.get q.2 = s'.contents ∧ q.1.2.get q.2 = s'.payload := by
  have hf : pieces.flatten = s'.contents ++ s'.payload :=
    List.append_cancel_right (hp.trans (C117_nothing_lost U s s' r r' hr h).symm)
  obtain ⟨a, pre, post, i, cap, m', e, ha, hs, -, -⟩ := storeMessage_shape spare pieces _ _ m hf
  simp only [e]
  rw [hs] at ha
  refine ⟨get_window m' i pre _ (s'.payload ++ post) _ (by rw [ha]; simp), ?_⟩
  have := get_window m' i (pre ++ s'.contents) s'.payload post (cap - s'.contents.length) ha
  rwa [List.length_append] at this

example : (parse plainU Sip.new ⟨[], [text "SIP/2.0 200 OK\r\nContent-Length: 4\r\n\r\nhi", text "more"], 4096, .eof⟩).1 = .ok () ∧
    let s' := (parse plainU Sip.new ⟨[], [text "SIP/2.0 200 OK\r\nContent-Length: 4\r\n\r\nhi", text "more"], 4096, .eof⟩).2.1
    let q := storeMessage 7 [text "SIP/2.0 200 OK\r\n", text "Content-Length: 4\r\n", text "\r\n", text "hi"] s'.contents.length []
    q.1.2.get q.2 = text "\r\nhi" := by
  decide +kernel

/-- Appending to the header bytes (`append(sip.LayerContents(), x...)`) overwrites the beginning of the body: `x` is read where
the body was.  For every message with a body and every `x` no longer than it. -/
theorem C160_contents_refuted (U : Unicode) (s s' : Sip) (r r' : Rd) (hr : r.Ok) (h : parse U s r = (.ok (), s', r'))
    (spare spare' : Nat) (pieces : List Bytes) (m : Arrays) (hp : pieces.flatten ++ r'.all = r.all)
    (x : Bytes) (hx : x.length ≤ s'.payload.length) :
    let q := storeMessage spare pieces s'.contents.length m
    let w := q.1.1.append spare' x q.2
    q.1.2.get w.2 = x ++ s'.payload.drop x.length ∧ q.1.1.get w.2 = s'.contents ∧ w.1.get w.2 = s'.contents ++ x := by
  have hf : pieces.flatten = s'.contents ++ s'.payload :=
    List.append_cancel_right (hp.trans (C117_nothing_lost U s s' r r' hr h).symm)
  obtain ⟨a, pre, post, i, cap, m', e, ha, hs, hc, hc'⟩ := storeMessage_shape spare pieces _ _ m hf
  simp only [e]
  rw [hs] at ha
  generalize s'.contents = c at *
  generalize s'.payload = p at *
  rw [Slice.append, if_pos (by simp only; omega)]
  simp only [ha]
  have e1 : List.take (pre.length + c.length) (pre ++ c ++ p ++ post) = pre ++ c := by
    rw [List.append_assoc (pre ++ c)]; exact List.take_left' (by simp)
  have e2 : List.drop (pre.length + c.length + x.length) (pre ++ c ++ p ++ post) = p.drop x.length ++ post := by
    rw [← List.drop_drop, List.append_assoc (pre ++ c), List.drop_left' (by simp), List.drop_append_of_le_length hx]
  rw [e1, e2]
  by_cases hi : i < m'.length
  · have e3 := slice_set_same m' i (pre ++ c ++ x ++ (p.drop x.length ++ post)) hi
    generalize m'.set i (pre ++ c ++ x ++ (p.drop x.length ++ post)) = m2 at *
    refine ⟨?_, get_window m2 i pre c (x ++ (p.drop x.length ++ post)) cap (by rw [e3]; simp), ?_⟩
    · have := get_window m2 i (pre ++ c) (x ++ p.drop x.length) post (cap - c.length) (by rw [e3]; simp)
      rw [List.length_append] at this
      rw [← this]
      congr 2
      simp; omega
    · have := get_window m2 i pre (c ++ x) (p.drop x.length ++ post) cap (by rw [e3]; simp)
      rw [List.length_append] at this
      exact this
  · have e0 : (m'[i]?).getD [] = [] := by simp [List.getElem?_eq_none (Nat.le_of_not_lt hi)]
    rw [e0] at ha
    have := congrArg List.length ha
    simp only [List.length_nil, List.length_append] at this
    have hc0 : c = [] := List.eq_nil_of_length_eq_zero (by omega)
    have hp0 : p = [] := List.eq_nil_of_length_eq_zero (by omega)
    subst hp0 hc0
    have hx0 : x = [] := List.eq_nil_of_length_eq_zero (by simpa using hx)
    subst hx0
    simp [Slice.get]

/-- Hence the body changes: for every message with a body there is a byte that, appended to the header bytes, changes it. -/
theorem C160_body_refuted (U : Unicode) (s s' : Sip) (r r' : Rd) (hr : r.Ok) (h : parse U s r = (.ok (), s', r'))
    (spare spare' : Nat) (pieces : List Bytes) (m : Arrays) (hp : pieces.flatten ++ r'.all = r.all) (hb : s'.payload ≠ []) :
    ∃ b : UInt8, let q := storeMessage spare pieces s'.contents.length m
      q.1.2.get (q.1.1.append spare' [b] q.2).2 ≠ q.1.2.get q.2 := by
  obtain ⟨y, p, hyp⟩ := List.exists_cons_of_ne_nil hb
  refine ⟨y + 1, ?_⟩
  have h1 := (C160_contents_refuted U s s' r r' hr h spare spare' pieces m hp [y + 1] (by simp [hyp])).1
  have h2 := (C160_views U s s' r r' hr h spare pieces m hp).2
  simp only at h1 h2 ⊢
  rw [h1, h2, hyp]
  simp

/-- Appending to the body never touches the header bytes, and neither does writing into the body; writing into the header bytes
does not touch the body.  Missing from the property: appending to the header bytes, which leaves the body alone only when there
is no room for `x` in the array. -/
theorem C160_partial (U : Unicode) (s s' : Sip) (r r' : Rd) (hr : r.Ok) (h : parse U s r = (.ok (), s', r'))
    (spare spare' : Nat) (pieces : List Bytes) (m : Arrays) (hp : pieces.flatten ++ r'.all = r.all) :
    let q := storeMessage spare pieces s'.contents.length m
    (∀ x : Bytes, let w := q.1.2.append spare' x q.2
      q.1.1.get w.2 = s'.contents ∧ w.1.get w.2 = s'.payload ++ x) ∧
    (∀ k < s'.payload.length, ∀ b, q.1.1.get (q.1.2.put k b q.2) = s'.contents ∧
      q.1.2.get (q.1.2.put k b q.2) = s'.payload.set k b) ∧
    (∀ k < s'.contents.length, ∀ b, q.1.2.get (q.1.1.put k b q.2) = s'.payload ∧
      q.1.1.get (q.1.1.put k b q.2) = s'.contents.set k b) ∧
    (∀ x : Bytes, q.1.1.cap < s'.contents.length + x.length → let w := q.1.1.append spare' x q.2
      q.1.2.get w.2 = s'.payload ∧ w.1.get w.2 = s'.contents ++ x) := by
  have hf : pieces.flatten = s'.contents ++ s'.payload :=
    List.append_cancel_right (hp.trans (C117_nothing_lost U s s' r r' hr h).symm)
  obtain ⟨v1, v2⟩ := C160_views U s s' r r' hr h spare pieces m hp
  obtain ⟨a, pre, post, i, cap, m', e, ha, hs, hc, hc'⟩ := storeMessage_shape spare pieces _ _ m hf
  simp only [e] at v1 v2 ⊢
  have hl := congrArg List.length (ha.trans hs)
  simp only [List.length_append] at hl
  have i1 : Inside ⟨i, pre.length, s'.contents.length, cap⟩ m' := ⟨by simp only; omega, by simp only; omega⟩
  have i2 : Inside ⟨i, pre.length + s'.contents.length, s'.payload.length, cap - s'.contents.length⟩ m' :=
    ⟨by simp only; omega, by simp only; omega⟩
  refine ⟨fun x => ⟨?_, ?_⟩, fun k hk b => ⟨?_, ?_⟩, fun k hk b => ⟨?_, ?_⟩, fun x hx => ⟨?_, ?_⟩⟩
  · exact (append_frame spare' _ _ x m' i2 i1 (.inl (by simp only; omega))).trans v1
  · rw [(slice_append spare' _ x m' i2).2, v2]
  · exact (put_frame _ _ k b m' (.inl (by simp only; omega))).trans v1
  · rw [put_get _ k b m' i2 hk, v2]
  · exact (put_frame _ _ k b m' (.inr (by simp only; omega))).trans v2
  · rw [put_get _ k b m' i1 hk, v1]
  · exact (append_frame spare' _ _ x m' i1 i2 (.inr hx)).trans v2
  · rw [(slice_append spare' _ x m' i1).2, v1]

example : let r : Rd := ⟨[], [text "SIP/2.0 200 OK\r\nContent-Length: 4\r\n\r\nhi", text "more"], 4096, .eof⟩
    let pieces := [text "SIP/2.0 200 OK\r\n", text "Content-Length: 4\r\n", text "\r\n", text "hi"]
    r.Ok ∧ (parse plainU Sip.new r).1 = .ok () ∧ pieces.flatten ++ (parse plainU Sip.new r).2.2.all = r.all ∧
      (parse plainU Sip.new r).2.1.payload ≠ [] := by
  refine ⟨⟨by decide, by decide⟩, by decide +kernel, by decide +kernel, by decide +kernel⟩

end Verif.Props
