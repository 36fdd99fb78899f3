import Verif.Lemmas.SipsWhole
/-!
# What stays in the reader when a message has arrived in one piece
-/
namespace Verif.Sips
open Verif.Str

theorem index_first {l y : Bytes} (h : (10 : UInt8) ∉ l) : index 10 (l ++ 10 :: y) = (l.length : Int) := by
  obtain ⟨a, b, e, h1, h2⟩ := index_split (show (10 : UInt8) ∈ l ++ 10 :: y by simp)
  have : a = l := by
    rcases List.append_eq_append_iff.1 e with ⟨c, h3, h4⟩ | ⟨c, h3, h4⟩
    · cases c with
      | nil => simpa using h3
      | cons x c =>
        simp only [List.cons_append, List.cons.injEq] at h4
        exact absurd (by rw [h3, ← h4.1]; simp) h1
    · cases c with
      | nil => simpa using h3.symm
      | cons x c =>
        simp only [List.cons_append, List.cons.injEq] at h4
        exact absurd (by rw [h3, ← h4.1]; simp) h
  rw [h2, this]

theorem readSlice_buf (l y : Bytes) (cs : List Bytes) (cap : Nat) (fin : Err) (h : (10 : UInt8) ∉ l) :
    Rd.readSlice 10 ⟨l ++ 10 :: y, cs, cap, fin⟩ = .ok (l ++ [10], none, ⟨y, cs, cap, fin⟩) := by
  have hi := index_first (y := y) h
  rw [Rd.readSlice, Rd.readSliceAux]
  have h0 : index 10 (l ++ 10 :: y) ≥ 0 := by omega
  simp only [h0, if_true]
  have hn : (index 10 (l ++ 10 :: y)).toNat = l.length := by omega
  rw [hn, show (l ++ 10 :: y).take (l.length + 1) = l ++ [10] by rw [List.take_append, List.take_of_length_le (by omega)]; simp,
    show (l ++ 10 :: y).drop (l.length + 1) = y by simp [List.drop_append]]

theorem readSlice_load (w : Bytes) (cs : List Bytes) (cap : Nat) (fin : Err) (hw : (10 : UInt8) ∈ w) (hlen : w.length ≤ cap) :
    Rd.readSlice 10 ⟨[], w :: cs, cap, fin⟩ = Rd.readSlice 10 ⟨w, cs, cap, fin⟩ := by
  have hpos : 0 < w.length := List.length_pos_iff.2 (List.ne_nil_of_mem hw)
  have h0 : ¬ index 10 ([] : Bytes) ≥ 0 := by have := (index_neg_iff 10 ([] : Bytes)).2 (by simp); omega
  obtain ⟨a, b, e, h1, h2⟩ := index_split hw
  have h3 : index 10 w ≥ 0 := by omega
  have hu : under cap (w :: cs) = some (w, cs) := by
    rw [under, if_neg (List.ne_nil_of_mem hw), List.take_of_length_le hlen, List.drop_of_length_le hlen, if_pos rfl]
  rw [Rd.readSlice, Rd.readSliceAux, Rd.readSlice, Rd.readSliceAux]
  simp only [h0, if_false, h3, if_true, List.length_nil, Nat.sub_zero, hu, List.nil_append]
  rw [if_neg (by omega)]
  obtain ⟨c, rfl⟩ : ∃ c, cap = c + 1 := ⟨cap - 1, by omega⟩
  rw [Rd.readSliceAux]
  simp only [h3, if_true]

/-- A message in the first piece of the input is read as if it had been in the buffer. -/
theorem parse_load (U : Unicode) (s : Sip) (w : Bytes) (cs : List Bytes) (cap : Nat) (fin : Err) (hw : (10 : UInt8) ∈ w)
    (hlen : w.length ≤ cap) : parse U s ⟨[], w :: cs, cap, fin⟩ = parse U s ⟨w, cs, cap, fin⟩ := by
  have hpos : 0 < w.length := List.length_pos_iff.2 (List.ne_nil_of_mem hw)
  have h : ∀ fuel first buf off, lineLoop U (fuel + 1) first buf off s ⟨[], w :: cs, cap, fin⟩ =
      lineLoop U (fuel + 1) first buf off s ⟨w, cs, cap, fin⟩ := by
    intro fuel first buf off
    obtain ⟨l, e, r1, hr, -⟩ := readSlice_cases 10 ⟨w, cs, cap, fin⟩ ⟨by show 0 < cap; omega, hlen⟩
    rw [lineLoop_step U _ _ _ _ _ _ _ _ _ hr, lineLoop_step U _ _ _ _ _ _ _ _ _ ((readSlice_load w cs cap fin hw hlen).trans hr)]
  rw [parse, parse, show (⟨[], w :: cs, cap, fin⟩ : Rd).all = (⟨w, cs, cap, fin⟩ : Rd).all by simp [Rd.all], h]

theorem lineLoop_buf (U : Unicode) (tail : Bytes) (cs : List Bytes) (cap : Nat) (fin : Err) :
    ∀ (ls : List Bytes) (fuel : Nat) (first : Bool) (buf : Bytes) (off : Nat) (s s1 : Sip),
    (∀ l ∈ ls, (10 : UInt8) ∉ l ∧ trim crlf l ≠ []) → runLines U first (ls.map (trim crlf)) s = (.ok (), s1) →
    lineLoop U (ls.length + fuel) first buf off s ⟨joinLines ls ++ tail, cs, cap, fin⟩ =
      lineLoop U fuel (first && ls.isEmpty) (buf ++ joinLines ls) (off + (joinLines ls).length) s1 ⟨tail, cs, cap, fin⟩ := by
  intro ls
  induction ls with
  | nil =>
    intro fuel first buf off s s1 _ h1
    have h1 : ((.ok (), s) : Res Unit × Sip) = (.ok (), s1) := h1
    obtain ⟨-, rfl⟩ := Prod.mk.inj h1
    simp
  | cons l ls ih =>
    intro fuel first buf off s s1 hls h1
    obtain ⟨g1, g2⟩ := hls l (by simp)
    rw [List.map_cons, runLines] at h1
    rw [show (l :: ls).length + fuel = ls.length + fuel + 1 by simp; omega]
    have hr := readSlice_buf l (joinLines ls ++ tail) cs cap fin g1
    rw [show joinLines (l :: ls) ++ tail = l ++ 10 :: (joinLines ls ++ tail) by simp]
    rw [lineLoop_step U _ _ _ _ _ _ _ _ _ hr, if_neg (by simp), if_neg (by simp), trim_lf, if_neg (by simp [g2])]
    rcases hp : parseLine U first (trim crlf l) s with ⟨_ | e | _ | _, s2⟩
    · rw [hp] at h1
      simp only at h1 ⊢
      rw [ih fuel false _ _ s2 s1 (fun m hm => hls m (by simp [hm])) h1]
      simp only [joinLines_cons, Bool.false_and, List.isEmpty_cons, Bool.and_false]
      congr 1
      · simp
      · simp; omega
    all_goals rw [hp] at h1; simp at h1

/-- The reader after the header section. -/
theorem parse_blank_buf (U : Unicode) (s s1 : Sip) (ls : List Bytes) (cr rest : Bytes) (cs : List Bytes) (cap : Nat) (fin : Err)
    (hcr : ∀ b ∈ cr, b = 13) (hls : ∀ l ∈ ls, (10 : UInt8) ∉ l ∧ trim crlf l ≠ [])
    (hrun : runLines U true (ls.map (trim crlf)) s = (.ok (), s1)) :
    parse U s ⟨joinLines ls ++ (cr ++ 10 :: rest), cs, cap, fin⟩ =
      finish U (joinLines ls ++ (cr ++ [10])) (joinLines ls).length s1 ⟨rest, cs, cap, fin⟩ := by
  have hj := joinLines_length ls
  have hlen : (⟨joinLines ls ++ (cr ++ 10 :: rest), cs, cap, fin⟩ : Rd).all.length ≥ (joinLines ls).length := by simp [Rd.all]
  generalize hn : (⟨joinLines ls ++ (cr ++ 10 :: rest), cs, cap, fin⟩ : Rd).all.length = n at hlen
  rw [parse, hn, show n + 2 = ls.length + ((n + 1 - ls.length) + 1) by omega, lineLoop_buf U _ cs cap fin ls _ _ _ _ _ _ hls hrun]
  have h10 : (10 : UInt8) ∉ cr := fun hc => by simpa using hcr _ hc
  have hr := readSlice_buf cr rest cs cap fin h10
  have : trim crlf cr = [] := trim_nil_of_all fun b hb => by rw [hcr b hb]; rfl
  rw [lineLoop_step U _ _ _ _ _ _ _ _ _ hr, if_neg (by simp), if_neg (by simp), trim_lf, if_pos (by simp [this])]
  simp

/-- A body that is in the buffer, with all that follows it there, is taken at once. -/
theorem bodyLoop_buf (fuel : Nat) (size : Int) (x : Bytes) (cs : List Bytes) (cap : Nat) (fin : Err) (h1 : 0 < size) (h2 : size ≤ x.length)
    (h3 : x.length ≤ 4096) : bodyLoop (fuel + 2) size [] ⟨x, cs, cap, fin⟩ = (.ok x, ⟨[], cs, cap, fin⟩) := by
  have hx : x ≠ [] := by rintro rfl; simp at h2; omega
  have hr : (⟨x, cs, cap, fin⟩ : Rd).read 4096 = (some x, ⟨[], cs, cap, fin⟩) := by
    rw [Rd.read, if_neg hx]
    simp [List.take_of_length_le h3, List.drop_of_length_le h3]
  rw [bodyLoop, if_pos h1, hr]
  simp only
  rw [bodyLoop, if_neg (by omega)]
  simp

/-- What is read is kept: the header section, and the blank line with as much of the rest as was read. -/
theorem finish_keeps (U : Unicode) (pre blank : Bytes) (s s' : Sip) (r r' : Rd) (hr : r.Ok)
    (h : finish U (pre ++ blank) pre.length s r = (.ok (), s', r')) :
    s'.contents = pre ∧ s'.payload ++ r'.all = blank ++ r.all := by
  rcases hf : fillHeader U s with ⟨_ | e | _ | _, s1⟩
  · rcases finish_cases U pre blank s s1 r hr hf with ⟨size, k, r1, -, -, h1, h2, -⟩ | ⟨size, r1, -, -, -, h1⟩ | ⟨e, -, h1⟩
    · rw [h1] at h
      obtain ⟨-, h⟩ := Prod.mk.inj h
      obtain ⟨rfl, rfl⟩ := Prod.mk.inj h
      refine ⟨rfl, ?_⟩
      rw [h2]
      show blank ++ r.all.take k ++ r.all.drop k = _
      rw [List.append_assoc, List.take_append_drop]
    all_goals rw [h1] at h; simp at h
  all_goals rw [finish, hf] at h; simp at h

/-- The lines read so far, and the blank line. -/
theorem lineLoop_keeps (U : Unicode) : ∀ (fuel : Nat) (first : Bool) (buf : Bytes) (off : Nat) (s s' : Sip) (r r' : Rd) (b : Bytes) (n : Nat),
    r.Ok → off = buf.length → lineLoop U fuel first buf off s r = (.ok (b, n), s', r') →
    ∃ pre blank, b = pre ++ blank ∧ n = pre.length ∧ r'.Ok ∧ b ++ r'.all = buf ++ r.all := by
  intro fuel
  induction fuel with
  | zero => intro first buf off s s' r r' b n _ _ h; rw [lineLoop] at h; simp at h
  | succ fuel ih =>
    intro first buf off s s' r r' b n hr hoff h
    obtain ⟨l, e, r1, h1, h2, h3, h4, h5, h6⟩ := readSlice_cases 10 r hr
    rw [lineLoop_step U _ _ _ _ _ _ _ _ _ h1] at h
    split at h
    · simp at h
    split at h
    · rename_i hl
      simp only [Prod.mk.injEq, Res.ok.injEq] at h
      obtain ⟨⟨rfl, rfl⟩, rfl, rfl⟩ := h
      exact ⟨buf, [], by simp, hoff, h3, by rw [h2, List.length_eq_zero_iff.1 hl.2]; simp⟩
    split at h
    · simp only [Prod.mk.injEq, Res.ok.injEq] at h
      obtain ⟨⟨rfl, rfl⟩, rfl, rfl⟩ := h
      exact ⟨buf, l, rfl, hoff, h3, by rw [h2]; simp⟩
    rcases hp : parseLine U first (trim crlf l) s with ⟨_ | e | _ | _, s2⟩ <;> rw [hp] at h
    · obtain ⟨pre, blank, i1, i2, i3, i4⟩ := ih _ _ _ _ _ _ _ _ _ h3 (by simp [hoff]) h
      exact ⟨pre, blank, i1, i2, i3, by rw [i4, h2]; simp⟩
    all_goals simp at h

theorem parse_keeps (U : Unicode) (s s' : Sip) (r r' : Rd) (hr : r.Ok) (h : parse U s r = (.ok (), s', r')) :
    s'.contents ++ s'.payload ++ r'.all = r.all := by
  rw [parse] at h
  rcases hl : lineLoop U (r.all.length + 2) true [] 0 s r with ⟨⟨b, n⟩ | e | _ | _, s1, r1⟩ <;> rw [hl] at h
  · obtain ⟨pre, blank, rfl, rfl, h3, h4⟩ := lineLoop_keeps U _ _ _ _ _ _ _ _ _ _ hr rfl hl
    obtain ⟨g1, g2⟩ := finish_keeps U pre blank s1 s' r1 r' h3 h
    rw [List.append_assoc, g2, g1, ← List.append_assoc, h4]
    rfl
  all_goals simp at h

/-- The reader after the message. -/
theorem parse_buf (U : Unicode) (s s' : Sip) (r' : Rd) (ls : List Bytes) (cr rest : Bytes) (cs : List Bytes) (cap : Nat) (fin : Err)
    (hcr : ∀ b ∈ cr, b = 13) (hls : ∀ l ∈ ls, (10 : UInt8) ∉ l ∧ trim crlf l ≠ [] ∧ l.length < cap)
    (hfit : (joinLines ls ++ (cr ++ 10 :: rest)).length ≤ cap) (hrest : rest.length ≤ 4096) (n : Int)
    (hp : parse U s ⟨joinLines ls ++ (cr ++ 10 :: rest), cs, cap, fin⟩ = (.ok (), s', r'))
    (hn : getContentLength U s'.hdr = .ok n) :
    (n ≤ cr.length + 1 → r' = ⟨rest, cs, cap, fin⟩) ∧ (cr.length + 1 < n → n ≤ cr.length + 1 + rest.length → r' = ⟨[], cs, cap, fin⟩) ∧
    s'.payload ++ r'.all = cr ++ 10 :: (rest ++ cs.flatten) := by
  obtain ⟨s1, hrun⟩ := parse_blank_inv U s s' _ r' (show (⟨joinLines ls ++ (cr ++ 10 :: rest), cs, cap, fin⟩ : Rd).Ok from
    ⟨by show 0 < cap; simp at hfit; omega, hfit⟩) ls cr (rest ++ cs.flatten) (by simp [Rd.all]) hls hp
  rw [parse_blank_buf U s s1 ls cr rest cs cap fin hcr (fun l hl => ⟨(hls l hl).1, (hls l hl).2.1⟩) hrun] at hp
  have hk := (finish_keeps U _ _ _ _ _ _ (show (⟨rest, cs, cap, fin⟩ : Rd).Ok from ⟨by show 0 < cap; simp at hfit; omega, by
    show rest.length ≤ cap; simp at hfit; omega⟩) hp).2
  rw [← and_assoc]
  refine ⟨?_, by rw [hk]; simp [Rd.all]⟩
  rw [finish] at hp
  rcases hf : fillHeader U s1 with ⟨_ | e | _ | _, s2⟩ <;> rw [hf] at hp
  · simp only at hp
    have hsub : (((joinLines ls ++ (cr ++ [10])).length : Nat) : Int) - ((joinLines ls).length : Nat) = cr.length + 1 := by simp; omega
    rw [hsub] at hp
    have hh : ∀ b, (fillBody U s2.hdr ⟨rest, cs, cap, fin⟩ (cr.length + 1)) = (.ok b, r') → getContentLength U s2.hdr = .ok n →
        (n ≤ cr.length + 1 → r' = ⟨rest, cs, cap, fin⟩) ∧ (cr.length + 1 < n → n ≤ cr.length + 1 + rest.length → r' = ⟨[], cs, cap, fin⟩) := by
      intro b hb hc
      rw [fillBody, hc] at hb
      simp only at hb
      refine ⟨fun h1 => ?_, fun h1 h2 => ?_⟩
      · rw [bodyLoop, if_neg (by omega)] at hb
        exact (Prod.mk.inj hb).2.symm
      · obtain ⟨m, hm⟩ : ∃ m, (⟨rest, cs, cap, fin⟩ : Rd).all.length + 1 = m + 2 :=
          ⟨(⟨rest, cs, cap, fin⟩ : Rd).all.length - 1, by simp [Rd.all]; omega⟩
        rw [hm, bodyLoop_buf m _ rest cs cap fin (by omega) (by omega) hrest] at hb
        exact (Prod.mk.inj hb).2.symm
    rcases hb : fillBody U s2.hdr ⟨rest, cs, cap, fin⟩ (cr.length + 1) with ⟨body | e | _ | _, r1⟩ <;> rw [hb] at hp
    · simp only at hp
      split at hp
      · simp only [Prod.mk.injEq, true_and] at hp
        obtain ⟨e1, e2⟩ := hp
        refine hh body (by rw [hb, e2]) ?_
        rw [← hn, ← e1]
        rfl
      · simp at hp
    all_goals simp at hp
  all_goals simp at hp

end Verif.Sips
