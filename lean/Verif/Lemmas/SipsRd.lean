import Verif.Model.SipsMsg
import Verif.Lemmas.Str
/-!
# `bufio.Reader`: `ReadSlice` and `Read` in terms of the bytes still to come
-/
namespace Verif.Sips
open Verif.Str

/-- The buffer has room for a byte and holds no more than fits. -/
structure Rd.Ok (r : Rd) : Prop where
  room : 0 < r.cap
  fits : r.buf.length ≤ r.cap

/-- Two readers that will deliver the same bytes, however fragmented. -/
structure Rd.Same (r t : Rd) : Prop where
  all : r.all = t.all
  cap : r.cap = t.cap
  final : r.final = t.final

theorem under_none {n : Nat} {cs : List Bytes} (h : under n cs = none) : cs.flatten = [] := by
  induction cs with
  | nil => rfl
  | cons c cs ih =>
    rw [under] at h
    split at h
    · rename_i hc; subst hc; simpa using ih h
    · simp at h

theorem under_some {n : Nat} (hn : 0 < n) {cs cs' : List Bytes} {d : Bytes} (h : under n cs = some (d, cs')) :
    cs.flatten = d ++ cs'.flatten ∧ 0 < d.length ∧ d.length ≤ n := by
  induction cs with
  | nil => simp [under] at h
  | cons c cs ih =>
    rw [under] at h
    split at h
    · rename_i hc; subst hc; simpa using ih h
    · rename_i hc
      simp only [Option.some.injEq, Prod.mk.injEq] at h
      obtain ⟨rfl, rfl⟩ := h
      have hl : 0 < c.length := List.length_pos_iff.2 hc
      refine ⟨?_, by simp; omega, by simp; omega⟩
      split
      · rename_i hd
        have := List.take_append_drop n c
        rw [hd, List.append_nil] at this
        rw [List.flatten_cons, this]
      · rw [List.flatten_cons, List.flatten_cons, ← List.append_assoc, List.take_append_drop]

/-- The three ways in which `ReadSlice` ends. -/
theorem readSliceAux_cases (d : UInt8) : ∀ (fuel : Nat) (r : Rd), r.Ok → r.cap + 1 ≤ fuel + r.buf.length →
    ∃ l e r', r.readSliceAux d fuel = .ok (l, e, r') ∧ r.all = l ++ r'.all ∧ r'.Ok ∧ r'.cap = r.cap ∧ r'.final = r.final ∧
      ((∃ x, l = x ++ [d] ∧ d ∉ x ∧ e = none ∧ l.length ≤ r.cap) ∨
       (d ∉ l ∧ l.length = r.cap ∧ e = some .other) ∨
       (d ∉ l ∧ l.length < r.cap ∧ e = some r.final ∧ r'.all = [])) := by
  intro fuel
  induction fuel with
  | zero => intro r hr hf; have := hr.fits; omega
  | succ fuel ih =>
    intro r hr hf
    rw [Rd.readSliceAux]
    by_cases hd : d ∈ r.buf
    · obtain ⟨x, y, hxy, hx, hi⟩ := index_split hd
      have h0 : index d r.buf ≥ 0 := by rw [hi]; omega
      simp only [h0, if_true]
      have hn : (index d r.buf).toNat = x.length := by rw [hi]; simp
      rw [hn]
      have ht : r.buf.take (x.length + 1) = x ++ [d] := by rw [hxy, List.take_append, List.take_of_length_le (by omega)]; simp
      have hdr : r.buf.drop (x.length + 1) = y := by rw [hxy]; simp [List.drop_append]
      have hfit := hr.fits
      rw [hxy] at hfit
      simp at hfit
      refine ⟨x ++ [d], none, { r with buf := y }, by rw [ht, hdr], ?_, ⟨hr.room, by simp; omega⟩, rfl, rfl,
        .inl ⟨x, rfl, hx, rfl, by simp; omega⟩⟩
      simp [Rd.all, hxy]
    · have h0 : ¬ index d r.buf ≥ 0 := by have := (index_neg_iff d r.buf).2 hd; omega
      simp only [h0, if_false]
      by_cases hc : r.buf.length ≥ r.cap
      · rw [if_pos hc]
        refine ⟨r.buf, some .other, { r with buf := [] }, rfl, by simp [Rd.all], ⟨hr.room, by simp⟩, rfl, rfl,
          .inr (.inl ⟨hd, by have := hr.fits; omega, rfl⟩)⟩
      · rw [if_neg hc]
        cases hu : under (r.cap - r.buf.length) r.chunks with
        | none =>
          refine ⟨r.buf, some r.final, { r with buf := [], chunks := [] }, rfl, ?_, ⟨hr.room, by simp⟩, rfl, rfl,
            .inr (.inr ⟨hd, by omega, rfl, by simp [Rd.all]⟩)⟩
          simp [Rd.all, under_none hu]
        | some p =>
          obtain ⟨c, cs⟩ := p
          obtain ⟨h1, h2, h3⟩ := under_some (by omega) hu
          obtain ⟨l, e, r', g1, g2, g3, g4, g5, g6⟩ := ih { r with buf := r.buf ++ c, chunks := cs }
            ⟨hr.room, by simp; omega⟩ (by simp; omega)
          refine ⟨l, e, r', g1, ?_, g3, g4, g5, g6⟩
          rw [← g2]
          simp [Rd.all, h1]

theorem readSlice_cases (d : UInt8) (r : Rd) (hr : r.Ok) :
    ∃ l e r', r.readSlice d = .ok (l, e, r') ∧ r.all = l ++ r'.all ∧ r'.Ok ∧ r'.cap = r.cap ∧ r'.final = r.final ∧
      ((∃ x, l = x ++ [d] ∧ d ∉ x ∧ e = none ∧ l.length ≤ r.cap) ∨
       (d ∉ l ∧ l.length = r.cap ∧ e = some .other) ∨
       (d ∉ l ∧ l.length < r.cap ∧ e = some r.final ∧ r'.all = [])) :=
  readSliceAux_cases d (r.cap + 1) r hr (by omega)

theorem first_unique {d : UInt8} {x y u v : Bytes} (h : x ++ d :: u = y ++ d :: v) (hx : d ∉ x) (hy : d ∉ y) :
    x = y ∧ u = v := by
  have h1 := index_append hx u
  have h2 := index_append hy v
  rw [h, h2] at h1
  have hl : y.length = x.length := by omega
  obtain ⟨rfl, h3⟩ := List.append_inj h hl.symm
  exact ⟨rfl, (List.cons.inj h3).2⟩

/-- `ReadSlice` delivers the same whatever the fragmentation. -/
theorem readSlice_same (d : UInt8) {r t : Rd} (hr : r.Ok) (ht : t.Ok) (h : r.Same t) :
    ∃ l e r' t', r.readSlice d = .ok (l, e, r') ∧ t.readSlice d = .ok (l, e, t') ∧ r'.Ok ∧ t'.Ok ∧ r'.Same t' ∧
      r.all = l ++ r'.all := by
  obtain ⟨l, e, r', r1, r2, r3, r4, r5, r6⟩ := readSlice_cases d r hr
  obtain ⟨m, f, t', t1, t2, t3, t4, t5, t6⟩ := readSlice_cases d t ht
  have hall : l ++ r'.all = m ++ t'.all := by rw [← r2, ← t2, h.all]
  have hc := h.cap
  have hf := h.final
  have key : l = m ∧ e = f := by
    have hlen := congrArg List.length hall
    simp only [List.length_append] at hlen
    have mem_of : ∀ {a b x y : Bytes}, a ++ b = x ++ y → x.length ≤ a.length → d ∈ x → d ∈ a := by
      intro a b x y e hl hd
      have : x = a.take x.length := by
        have := congrArg (List.take x.length) e
        rw [List.take_append_of_le_length hl] at this
        simp at this
        exact this.symm
      rw [this] at hd
      exact List.mem_of_mem_take hd
    rcases r6 with ⟨x, rfl, hx, rfl, r8⟩ | ⟨r7, r8, rfl⟩ | ⟨r7, r8, rfl, r9⟩ <;>
      rcases t6 with ⟨y, rfl, hy, rfl, t8⟩ | ⟨t7, t8, rfl⟩ | ⟨t7, t8, rfl, t9⟩
    · rw [List.append_assoc, List.append_assoc] at hall
      rw [(first_unique hall hx hy).1]
      exact ⟨rfl, rfl⟩
    · exact absurd (mem_of hall.symm (by omega) (by simp)) t7
    · rw [t9, List.append_nil] at hall
      exact absurd (by rw [← hall]; simp) t7
    · exact absurd (mem_of hall (by omega) (by simp)) r7
    · obtain ⟨h1, -⟩ := List.append_inj hall (by omega)
      exact ⟨h1, rfl⟩
    · rw [t9] at hlen; simp at hlen; omega
    · rw [r9, List.append_nil] at hall
      exact absurd (by rw [hall]; simp) r7
    · rw [r9] at hlen; simp at hlen; omega
    · rw [r9, t9, List.append_nil, List.append_nil] at hall
      exact ⟨hall, by rw [hf]⟩
  obtain ⟨rfl, rfl⟩ := key
  exact ⟨l, e, r', t', r1, t1, r3, t3, ⟨List.append_cancel_left hall, by rw [r4, t4, hc], by rw [r5, t5, hf]⟩, r2⟩

/-- A line that fits the buffer. -/
theorem readSlice_line (r : Rd) (hr : r.Ok) (x rest : Bytes) (h : r.all = x ++ 10 :: rest) (hx : (10 : UInt8) ∉ x)
    (hl : x.length < r.cap) :
    ∃ r', r.readSlice 10 = .ok (x ++ [10], none, r') ∧ r'.all = rest ∧ r'.Ok ∧ r'.cap = r.cap ∧ r'.final = r.final := by
  obtain ⟨l, e, r', r1, r2, r3, r4, r5, r6⟩ := readSlice_cases 10 r hr
  rw [h] at r2
  have mem_of : x.length < l.length → (10 : UInt8) ∈ l := by
    intro hlt
    have := congrArg (fun z : Bytes => z[x.length]?) r2
    simp only [List.getElem?_append_right (Nat.le_refl _), Nat.sub_self, List.getElem?_cons_zero] at this
    rw [List.getElem?_append_left hlt] at this
    exact List.mem_of_getElem? this.symm
  have hlen := congrArg List.length r2
  simp only [List.length_append, List.length_cons] at hlen
  rcases r6 with ⟨y, rfl, hy, rfl, r8⟩ | ⟨r7, r8, rfl⟩ | ⟨r7, r8, rfl, r9⟩
  · rw [List.append_assoc] at r2
    obtain ⟨rfl, h2⟩ := first_unique r2 hx hy
    exact ⟨r', r1, h2.symm, r3, r4, r5⟩
  · exact absurd (mem_of (by omega)) r7
  · rw [r9] at hlen
    simp at hlen
    exact absurd (mem_of (by omega)) r7

/-- The end of the input. -/
theorem readSlice_end (r : Rd) (hr : r.Ok) (h : r.all = []) :
    ∃ r', r.readSlice 10 = .ok ([], some r.final, r') ∧ r'.all = [] ∧ r'.Ok ∧ r'.cap = r.cap ∧ r'.final = r.final := by
  obtain ⟨l, e, r', r1, r2, r3, r4, r5, r6⟩ := readSlice_cases 10 r hr
  rw [h] at r2
  obtain ⟨rfl, h2⟩ := List.append_eq_nil_iff.1 r2.symm
  rcases r6 with ⟨y, h3, -⟩ | ⟨r7, r8, rfl⟩ | ⟨r7, r8, rfl, r9⟩
  · simp at h3
  · have := hr.room; simp at r8; omega
  · exact ⟨r', r1, h2, r3, r4, r5⟩

/-- `Read` fails exactly at the end, and otherwise delivers at least one and at most `n` bytes. -/
theorem read_cases (n : Nat) (hn : 0 < n) (r : Rd) (hr : r.Ok) :
    (r.all = [] ∧ (r.read n).1 = none ∧ (r.read n).2.all = [] ∧ (r.read n).2.final = r.final) ∨
    ∃ d r', r.read n = (some d, r') ∧ r.all = d ++ r'.all ∧ 0 < d.length ∧ d.length ≤ n ∧ r'.Ok ∧ r'.cap = r.cap ∧
      r'.final = r.final := by
  rw [Rd.read]
  by_cases hb : r.buf = []
  · rw [if_pos hb]
    by_cases hc : n ≥ r.cap
    · rw [if_pos hc]
      cases hu : under n r.chunks with
      | none =>
        left
        simp [Rd.all, hb, under_none hu]
      | some p =>
        obtain ⟨d, cs⟩ := p
        obtain ⟨h1, h2, h3⟩ := under_some hn hu
        right
        exact ⟨d, _, rfl, by simp [Rd.all, hb, h1], h2, h3, ⟨hr.room, by simp [hb]⟩, rfl, rfl⟩
    · rw [if_neg hc]
      cases hu : under r.cap r.chunks with
      | none =>
        left
        simp [Rd.all, hb, under_none hu]
      | some p =>
        obtain ⟨d, cs⟩ := p
        obtain ⟨h1, h2, h3⟩ := under_some hr.room hu
        right
        refine ⟨d.take n, _, rfl, ?_, by simp; omega, by simp; omega, ⟨hr.room, by simp; omega⟩, rfl, rfl⟩
        simp only [Rd.all, hb, h1, List.nil_append, ← List.append_assoc, List.take_append_drop]
  · rw [if_neg hb]
    have : 0 < r.buf.length := List.length_pos_iff.2 hb
    have := hr.fits
    right
    refine ⟨r.buf.take n, _, rfl, ?_, by simp; omega, by simp; omega, ⟨hr.room, by simp; omega⟩, rfl, rfl⟩
    simp only [Rd.all, ← List.append_assoc, List.take_append_drop]

/-- What `fillBody` reads: a prefix of the rest, at least what is asked for if there is that much, and less than one block
more. -/
theorem bodyLoop_cases : ∀ (fuel : Nat) (size : Int) (body : Bytes) (r : Rd), r.Ok → r.all.length + 1 ≤ fuel →
    ((size ≤ r.all.length ∨ r.final = .eof) ∧ ∃ k r', bodyLoop fuel size body r = (.ok (body ++ r.all.take k), r') ∧
      r'.all = r.all.drop k ∧ (k : Int) ≤ r.all.length ∧ (size ≤ 0 → k = 0) ∧
      (size ≤ r.all.length → size ≤ k) ∧ (¬ size ≤ r.all.length → k = r.all.length) ∧ (0 < size → (k : Int) < size + 4096)) ∨
    (¬ size ≤ r.all.length ∧ r.final ≠ .eof ∧ ∃ r', bodyLoop fuel size body r = (.err r.final, r') ∧ r'.all = []) := by
  intro fuel
  induction fuel with
  | zero => intro size body r _ h; omega
  | succ fuel ih =>
    intro size body r hr hf
    rw [bodyLoop]
    by_cases hs : size > 0
    · rw [if_pos hs]
      rcases read_cases 4096 (by omega) r hr with ⟨h1, h2, h3, h4⟩ | ⟨d, r', h1, h2, h3, h4, h5, h6, h7⟩
      · rcases hq : r.read 4096 with ⟨o, r'⟩
        rw [hq] at h2 h3 h4
        have h2 : o = none := h2
        have h5 : r'.final = r.final := h4
        subst h2
        simp only [h5]
        by_cases he : r.final = .eof
        · left
          rw [if_pos he]
          refine ⟨.inr he, 0, r', by simp, ?_, by simp, fun _ => rfl, ?_, by simp [h1], fun _ => by simp; omega⟩
          · rw [List.drop_zero, h1]; exact h3
          · rw [h1]; simp
        · right
          rw [if_neg he]
          exact ⟨by rw [h1]; simp; omega, he, r', rfl, h3⟩
      · rw [h1]
        simp only
        have hl := congrArg List.length h2
        rw [List.length_append] at hl
        rcases ih (size - d.length) (body ++ d) r' h5 (by omega) with
          ⟨g0, k, r'', g1, g2, g3, g4, g5, g6, g7⟩ | ⟨g0, g1, r'', g2, g3⟩
        · left
          refine ⟨?_, d.length + k, r'', ?_, ?_, by omega, by omega, by omega, by omega, by omega⟩
          · rcases g0 with g0 | g0
            · left; omega
            · right; rw [← h7]; exact g0
          · rw [g1, h2, List.take_append, List.take_of_length_le (l := d) (i := d.length + k) (by omega)]
            simp
          · rw [g2, h2, List.drop_append, List.drop_eq_nil_of_le (as := d) (i := d.length + k) (by omega)]
            simp
        · right
          refine ⟨by omega, by rw [← h7]; exact g1, r'', ?_, g3⟩
          rw [g2, h7]
    · rw [if_neg hs]
      left
      exact ⟨.inl (by omega), 0, r, by simp, by simp, by simp, fun _ => rfl, fun _ => by simp; omega,
        fun h => absurd (show size ≤ r.all.length by omega) h, fun h => absurd h hs⟩

end Verif.Sips
