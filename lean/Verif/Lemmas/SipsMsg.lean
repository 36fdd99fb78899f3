import Verif.Lemmas.SipsRd
import Verif.Lemmas.SipsText
/-!
# The loop of `Parse` in terms of the lines of the input
-/
namespace Verif.Sips
open Verif.Str Verif.Spec.Sips

/-- The characters that `Parse` trims off a line. -/
def crlf (b : UInt8) : Bool := b == 13 || b == 10

/-- The lines handled one after the other. -/
def runLines (U : Unicode) : Bool → List Bytes → Sip → Res Unit × Sip
  | _, [], s => (.ok (), s)
  | first, l :: ls, s =>
    match parseLine U first l s with
    | (.ok _, s) => runLines U false ls s
    | (.err e, s) => (.err e, s)
    | (.panic, s) => (.panic, s)
    | (.diverge, s) => (.diverge, s)

/-- Lines terminated by LF. -/
def joinLines (ls : List Bytes) : Bytes := (ls.map fun l => l ++ [10]).flatten

@[simp] theorem joinLines_nil : joinLines [] = [] := rfl
@[simp] theorem joinLines_cons (l : Bytes) (ls : List Bytes) : joinLines (l :: ls) = l ++ 10 :: joinLines ls := by
  simp [joinLines]
theorem joinLines_append (a b : List Bytes) : joinLines (a ++ b) = joinLines a ++ joinLines b := by simp [joinLines]

theorem trim_lf (l : Bytes) : trim crlf (l ++ [10]) = trim crlf l := by
  obtain ⟨a, b, h1, h2, h3⟩ := trim_split crlf l
  have hk := h1
  by_cases ht : trim crlf l = []
  · rw [ht, trim_eq_nil_iff]
    intro c hc
    rw [List.mem_append, List.mem_singleton] at hc
    rcases hc with hc | rfl
    · exact (trim_eq_nil_iff _ _).1 ht c hc
    · rfl
  · rw [trim, trim]
    congr 1
    have h4 : (l ++ [10]).dropWhile crlf = l.dropWhile crlf ++ [10] := by
      have hne : l.dropWhile crlf ≠ [] := by
        intro h0; apply ht; rw [trim, h0]; rfl
      clear hk h1 h2 h3 ht
      induction l with
      | nil => simp at hne
      | cons x l ih =>
        rw [List.cons_append, List.dropWhile_cons, List.dropWhile_cons]
        by_cases hx : crlf x = true
        · rw [if_pos hx, if_pos hx]
          rw [List.dropWhile_cons, if_pos hx] at hne
          exact ih hne
        · rw [if_neg hx, if_neg hx]
          rfl
    rw [h4, List.reverse_append, List.reverse_singleton, List.singleton_append, List.dropWhile_cons]
    rfl

theorem lineLoop_step (U : Unicode) (fuel : Nat) (first : Bool) (buf : Bytes) (off : Nat) (s : Sip) (r r1 : Rd) (l : Bytes)
    (e : Option Err) (h : r.readSlice 10 = .ok (l, e, r1)) :
    lineLoop U (fuel + 1) first buf off s r =
      if e.isSome ∧ e ≠ some .eof then (.err (e.getD .other), s, r1)
      else if e.isSome ∧ l.length = 0 then (.ok (buf, off), s, r1)
      else
        if (trim crlf l).length = 0 then (.ok (buf ++ l, off), s, r1)
        else match parseLine U first (trim crlf l) s with
          | (.ok _, s) => lineLoop U fuel false (buf ++ l) (off + l.length) s r1
          | (.err e, s) => (.err e, s, r1)
          | (.panic, s) => (.panic, s, r1)
          | (.diverge, s) => (.diverge, s, r1) := by
  rw [lineLoop]
  rw [show (c!"\n" : UInt8) = 10 from rfl, h]
  rfl

/-- A line that is not blank. -/
theorem lineLoop_line (U : Unicode) (fuel : Nat) (first : Bool) (buf : Bytes) (off : Nat) (s : Sip) (r : Rd) (hr : r.Ok)
    (l rest : Bytes) (h : r.all = l ++ 10 :: rest) (hl : (10 : UInt8) ∉ l) (hne : trim crlf l ≠ []) (hlen : l.length < r.cap) :
    ∃ r1, r1.all = rest ∧ r1.Ok ∧ r1.cap = r.cap ∧ r1.final = r.final ∧
      lineLoop U (fuel + 1) first buf off s r = match parseLine U first (trim crlf l) s with
        | (.ok _, s) => lineLoop U fuel false (buf ++ (l ++ [10])) (off + (l.length + 1)) s r1
        | (.err e, s) => (.err e, s, r1)
        | (.panic, s) => (.panic, s, r1)
        | (.diverge, s) => (.diverge, s, r1) := by
  obtain ⟨r1, g1, g2, g3, g4, g5⟩ := readSlice_line r hr l rest h hl hlen
  refine ⟨r1, g2, g3, g4, g5, ?_⟩
  rw [lineLoop_step U fuel first buf off s r r1 _ none g1, if_neg (by simp), if_neg (by simp), trim_lf,
    if_neg (by simpa using hne)]
  simp

/-- A blank line. -/
theorem lineLoop_blank (U : Unicode) (fuel : Nat) (first : Bool) (buf : Bytes) (off : Nat) (s : Sip) (r : Rd) (hr : r.Ok)
    (l rest : Bytes) (h : r.all = l ++ 10 :: rest) (hl : ∀ b ∈ l, b = 13) (hlen : l.length < r.cap) :
    ∃ r1, r1.all = rest ∧ r1.Ok ∧ r1.cap = r.cap ∧ r1.final = r.final ∧
      lineLoop U (fuel + 1) first buf off s r = (.ok (buf ++ (l ++ [10]), off), s, r1) := by
  have h10 : (10 : UInt8) ∉ l := fun hc => by simpa using hl _ hc
  obtain ⟨r1, g1, g2, g3, g4, g5⟩ := readSlice_line r hr l rest h h10 hlen
  refine ⟨r1, g2, g3, g4, g5, ?_⟩
  have : trim crlf l = [] := trim_nil_of_all fun b hb => by rw [hl b hb]; rfl
  rw [lineLoop_step U fuel first buf off s r r1 _ none g1, if_neg (by simp), if_neg (by simp), trim_lf,
    if_pos (by simp [this])]

/-- The end of the input. -/
theorem lineLoop_eof (U : Unicode) (fuel : Nat) (first : Bool) (buf : Bytes) (off : Nat) (s : Sip) (r : Rd) (hr : r.Ok)
    (h : r.all = []) : ∃ r1, r1.all = [] ∧ r1.Ok ∧ r1.cap = r.cap ∧ r1.final = r.final ∧
      lineLoop U (fuel + 1) first buf off s r = (if r.final = .eof then .ok (buf, off) else .err r.final, s, r1) := by
  obtain ⟨r1, g1, g2, g3, g4, g5⟩ := readSlice_end r hr h
  refine ⟨r1, g2, g3, g4, g5, ?_⟩
  rw [lineLoop_step U fuel first buf off s r r1 _ _ g1]
  by_cases he : r.final = .eof
  · simp [he]
  · simp [he]

/-- All the lines before the blank one. -/
theorem lineLoop_lines (U : Unicode) (tail : Bytes) : ∀ (ls : List Bytes) (fuel : Nat) (first : Bool) (buf : Bytes) (off : Nat)
    (s : Sip) (r : Rd), r.Ok → r.all = joinLines ls ++ tail →
    (∀ l ∈ ls, (10 : UInt8) ∉ l ∧ trim crlf l ≠ [] ∧ l.length < r.cap) →
    ∃ r1, r1.Ok ∧ r1.cap = r.cap ∧ r1.final = r.final ∧
      (∀ s1, runLines U first (ls.map (trim crlf)) s = (.ok (), s1) → r1.all = tail ∧
        lineLoop U (ls.length + fuel) first buf off s r =
          lineLoop U fuel (first && ls.isEmpty) (buf ++ joinLines ls) (off + (joinLines ls).length) s1 r1) ∧
      (∀ e s1, runLines U first (ls.map (trim crlf)) s = (.err e, s1) →
        lineLoop U (ls.length + fuel) first buf off s r = (.err e, s1, r1)) ∧
      (∀ s1, runLines U first (ls.map (trim crlf)) s = (.panic, s1) →
        lineLoop U (ls.length + fuel) first buf off s r = (.panic, s1, r1)) ∧
      (∀ s1, runLines U first (ls.map (trim crlf)) s = (.diverge, s1) →
        lineLoop U (ls.length + fuel) first buf off s r = (.diverge, s1, r1)) := by
  intro ls
  induction ls with
  | nil =>
    intro fuel first buf off s r hr h _
    refine ⟨r, hr, rfl, rfl, ?_, ?_, ?_, ?_⟩
    · intro s1 h1
      have h1 : ((.ok (), s) : Res Unit × Sip) = (.ok (), s1) := h1
      obtain ⟨-, rfl⟩ := Prod.mk.inj h1
      refine ⟨by simpa using h, by simp⟩
    · intro e s1 h1; simp [runLines] at h1
    · intro s1 h1; simp [runLines] at h1
    · intro s1 h1; simp [runLines] at h1
  | cons l ls ih =>
    intro fuel first buf off s r hr h hls
    obtain ⟨h1, h2, h3⟩ := hls l (by simp)
    obtain ⟨r1, g1, g2, g3, g4, g5⟩ := lineLoop_line U (ls.length + fuel) first buf off s r hr l (joinLines ls ++ tail)
      (by simpa using h) h1 h2 h3
    rw [show (l :: ls).length + fuel = ls.length + fuel + 1 by simp; omega, g5]
    rw [List.map_cons, runLines]
    rcases parseLine U first (trim crlf l) s with ⟨_ | e | _ | _, s1⟩
    · obtain ⟨r2, k1, k2, k3, k4, k5, k6, k7'⟩ := ih fuel false (buf ++ (l ++ [10])) (off + (l.length + 1)) s1 r1 g2 g1
        (fun m hm => by rw [g3]; exact hls m (by simp [hm]))
      refine ⟨r2, k1, by rw [k2, g3], by rw [k3, g4], ?_, k5, k6, k7'⟩
      intro s2 hs2
      obtain ⟨k7, k8⟩ := k4 s2 hs2
      refine ⟨k7, ?_⟩
      simp only [k8, joinLines_cons, Bool.false_and, List.isEmpty_cons, Bool.and_false]
      congr 1
      · simp
      · simp; omega
    · refine ⟨r1, g2, g3, g4, ?_, ?_, ?_, ?_⟩
      · intro s2 hs2; simp at hs2
      · intro e' s2 hs2; simp at hs2; simp [hs2]
      · intro s2 hs2; simp at hs2
      · intro s2 hs2; simp at hs2
    · refine ⟨r1, g2, g3, g4, ?_, ?_, ?_, ?_⟩
      · intro s2 hs2; simp at hs2
      · intro e' s2 hs2; simp at hs2
      · intro s2 hs2; simp at hs2; simp [hs2]
      · intro s2 hs2; simp at hs2
    · refine ⟨r1, g2, g3, g4, ?_, ?_, ?_, ?_⟩
      · intro s2 hs2; simp at hs2
      · intro e' s2 hs2; simp at hs2
      · intro s2 hs2; simp at hs2
      · intro s2 hs2; simp at hs2; simp [hs2]

/-! ## Fragmentation -/

theorem lineLoop_same (U : Unicode) : ∀ (fuel : Nat) (first : Bool) (buf : Bytes) (off : Nat) (s : Sip) (r t : Rd), r.Ok → t.Ok →
    r.Same t → ∃ q s1 r1 t1, lineLoop U fuel first buf off s r = (q, s1, r1) ∧ lineLoop U fuel first buf off s t = (q, s1, t1) ∧
      r1.Ok ∧ t1.Ok ∧ r1.Same t1 := by
  intro fuel
  induction fuel with
  | zero => intro first buf off s r t hr ht h; exact ⟨.diverge, s, r, t, rfl, rfl, hr, ht, h⟩
  | succ fuel ih =>
    intro first buf off s r t hr ht h
    obtain ⟨l, e, r1, t1, g1, g2, g3, g4, g5, -⟩ := readSlice_same 10 hr ht h
    rw [lineLoop_step U fuel first buf off s r r1 l e g1, lineLoop_step U fuel first buf off s t t1 l e g2]
    by_cases c1 : e.isSome ∧ e ≠ some .eof
    · rw [if_pos c1, if_pos c1]; exact ⟨_, _, _, _, rfl, rfl, g3, g4, g5⟩
    · rw [if_neg c1, if_neg c1]
      by_cases c2 : e.isSome ∧ l.length = 0
      · rw [if_pos c2, if_pos c2]; exact ⟨_, _, _, _, rfl, rfl, g3, g4, g5⟩
      · rw [if_neg c2, if_neg c2]
        by_cases c3 : (trim crlf l).length = 0
        · rw [if_pos c3, if_pos c3]; exact ⟨_, _, _, _, rfl, rfl, g3, g4, g5⟩
        · rw [if_neg c3, if_neg c3]
          rcases parseLine U first (trim crlf l) s with ⟨_ | e | _ | _, s1⟩
          · exact ih false _ _ s1 r1 t1 g3 g4 g5
          · exact ⟨_, _, _, _, rfl, rfl, g3, g4, g5⟩
          · exact ⟨_, _, _, _, rfl, rfl, g3, g4, g5⟩
          · exact ⟨_, _, _, _, rfl, rfl, g3, g4, g5⟩

/-! ## The end of `Parse` -/

theorem fillHeader_frame (U : Unicode) (s : Sip) : ∃ c q f t v, (fillHeader U s).2 =
    { s with contact := c, cseq := q, fromU := f, toU := t, via := v } := by
  simp only [fillHeader, GoM.bind_apply, GoM.get_apply, GoM.modify_apply, GoM.lift_apply]
  rcases getSIPContact U s.hdr with c | e | _ | _
  · simp only [Sip.hdr]
    rcases getSIPFrom U (s.headers.getD []) with f | e | _ | _
    · simp only
      rcases getSIPTo U (s.headers.getD []) with t | e | _ | _
      · simp only
        rcases getSIPVia U (s.headers.getD []) with v | e | _ | _
        all_goals exact ⟨_, _, _, _, _, rfl⟩
      all_goals exact ⟨_, _, _, _, _, rfl⟩
    all_goals exact ⟨_, _, _, _, _, rfl⟩
  all_goals exact ⟨s.contact, s.cseq, s.fromU, s.toU, s.via, rfl⟩

theorem fillHeader_ok (U : Unicode) (s : Sip) (c f t : User) (v : Via) (hc : getSIPContact U s.hdr = .ok c)
    (hf : getSIPFrom U s.hdr = .ok f) (ht : getSIPTo U s.hdr = .ok t) (hv : getSIPVia U s.hdr = .ok v) :
    fillHeader U s = (.ok (),
      { s with contact := some c, cseq := some (getSIPCseq U s.hdr), fromU := some f, toU := some t, via := some v }) := by
  simp only [Sip.hdr] at hc hf ht hv
  simp only [fillHeader, GoM.bind_apply, GoM.get_apply, GoM.modify_apply, GoM.lift_apply, Sip.hdr, hc, hf, ht, hv]

/-- `fillBody` and what follows, after the header fields are set. -/
theorem finish_cases (U : Unicode) (pre blank : Bytes) (s s1 : Sip) (r : Rd) (hr : r.Ok)
    (hf : fillHeader U s = (.ok (), s1)) :
    (∃ size k r', getContentLength U s1.hdr = .ok size ∧ (size - blank.length ≤ r.all.length ∨ r.final = .eof) ∧
      finish U (pre ++ blank) pre.length s r = (.ok (), { s1 with contents := pre, payload := blank ++ r.all.take k }, r') ∧
      r'.all = r.all.drop k ∧ k ≤ r.all.length ∧ (size ≤ blank.length → k = 0) ∧
      (size - blank.length ≤ r.all.length → size - blank.length ≤ k) ∧
      (¬ size - blank.length ≤ r.all.length → k = r.all.length) ∧
      (blank.length < size → (k : Int) < size - blank.length + 4096)) ∨
    (∃ size r', getContentLength U s1.hdr = .ok size ∧ ¬ size - blank.length ≤ r.all.length ∧ r.final ≠ .eof ∧
      finish U (pre ++ blank) pre.length s r = (.err r.final, s1, r')) ∨
    (∃ e, getContentLength U s1.hdr = .err e ∧ finish U (pre ++ blank) pre.length s r = (.err e, s1, r)) := by
  rw [finish, hf]
  simp only [fillBody]
  rcases atoi_total (getFirstHeader U s1.hdr b!"content-length") with ⟨size, h⟩ | h
  · have h : getContentLength U s1.hdr = .ok size := h
    rw [h]
    simp only
    have hsup : (((pre ++ blank).length : Nat) : Int) - (pre.length : Int) = blank.length := by simp; omega
    rw [hsup]
    rcases bodyLoop_cases (r.all.length + 1) (size - blank.length) [] r hr (by omega) with
      ⟨g0, k, r', g1, g2, g3, g4, g5, g6, g7⟩ | ⟨g0, g1, r', g2, g3⟩
    · left
      refine ⟨size, k, r', rfl, g0, ?_, g2, by omega, by omega, g5, g6, by omega⟩
      rw [g1]
      simp only [List.nil_append]
      have e1 : goSlice (pre ++ blank ++ r.all.take k) 0 (pre.length : Int) = .ok pre := by
        rw [List.append_assoc]
        exact goSlice_prefix pre _ _ rfl
      have e2 : goSlice (pre ++ blank ++ r.all.take k) (pre.length : Int) ((pre ++ blank ++ r.all.take k).length : Nat) =
          .ok (blank ++ r.all.take k) := by
        rw [List.append_assoc]
        exact goSlice_suffix pre _ _ rfl
      rw [e1, e2]
    · right; left
      refine ⟨size, r', rfl, g0, g1, ?_⟩
      rw [g2]
  · have h : getContentLength U s1.hdr = .err .other := h
    right; right
    exact ⟨.other, h, by rw [h]⟩

/-- The reader after `fillBody`. -/
theorem bodyLoop_rd : ∀ (fuel : Nat) (size : Int) (body b : Bytes) (r r' : Rd), r.Ok → bodyLoop fuel size body r = (.ok b, r') →
    r'.Ok ∧ r'.cap = r.cap ∧ r'.final = r.final := by
  intro fuel
  induction fuel with
  | zero => intro size body b r r' hr h; simp [bodyLoop] at h
  | succ fuel ih =>
    intro size body b r r' hr h
    rw [bodyLoop] at h
    by_cases hs : size > 0
    · rw [if_pos hs] at h
      rcases hx : r.read 4096 with ⟨_ | d, r1⟩
      · have hf : r1.Ok ∧ r1.cap = r.cap ∧ r1.final = r.final := by
          rw [Rd.read] at hx
          by_cases hb : r.buf = []
          · rw [if_pos hb] at hx
            by_cases hc : 4096 ≥ r.cap
            · rw [if_pos hc] at hx
              cases hu : under 4096 r.chunks with
              | none => rw [hu] at hx; simp only [Prod.mk.injEq, true_and] at hx; rw [← hx]; exact ⟨⟨hr.room, hr.fits⟩, rfl, rfl⟩
              | some p => rw [hu] at hx; simp at hx
            · rw [if_neg hc] at hx
              cases hu : under r.cap r.chunks with
              | none => rw [hu] at hx; simp only [Prod.mk.injEq, true_and] at hx; rw [← hx]; exact ⟨⟨hr.room, hr.fits⟩, rfl, rfl⟩
              | some p => rw [hu] at hx; simp at hx
          · rw [if_neg hb] at hx; simp at hx
        rw [hx] at h
        simp only at h
        split at h
        · simp only [Prod.mk.injEq] at h
          rw [← h.2]; exact hf
        · simp at h
      · rw [hx] at h
        simp only at h
        rcases read_cases 4096 (by decide) r hr with ⟨-, h1, -⟩ | ⟨d', r1', h1, -, -, -, h2, h3, h4⟩
        · rw [hx] at h1; simp at h1
        · rw [hx] at h1
          simp only [Prod.mk.injEq, Option.some.injEq] at h1
          obtain ⟨rfl, rfl⟩ := h1
          obtain ⟨i1, i2, i3⟩ := ih _ _ _ _ _ h2 h
          exact ⟨i1, i2.trans h3, i3.trans h4⟩
    · rw [if_neg hs] at h
      simp only [Prod.mk.injEq] at h
      rw [← h.2]; exact ⟨hr, rfl, rfl⟩

theorem finish_rd (U : Unicode) (b : Bytes) (o : Nat) (s s' : Sip) (r r' : Rd) (hr : r.Ok) (h : finish U b o s r = (.ok (), s', r')) :
    r'.Ok ∧ r'.cap = r.cap ∧ r'.final = r.final := by
  rw [finish] at h
  rcases hf : fillHeader U s with ⟨_ | e | _ | _, s1⟩ <;> rw [hf] at h
  · simp only at h
    rcases hb : fillBody U s1.hdr r ((b.length : Int) - o) with ⟨body | e | _ | _, r1⟩
    · rw [hb] at h
      simp only at h
      have : r' = r1 := by
        split at h
        · simp only [Prod.mk.injEq] at h; exact h.2.2.symm
        · simp at h
      subst this
      rw [fillBody] at hb
      cases hl : getContentLength U s1.hdr with
      | ok n => rw [hl] at hb; exact bodyLoop_rd _ _ _ _ _ _ hr hb
      | err e => rw [hl] at hb; simp at hb
      | panic => rw [hl] at hb; simp at hb
      | diverge => rw [hl] at hb; simp at hb
    all_goals rw [hb] at h; simp at h
  all_goals simp at h

/-- Buffer and offset at the end of the loop. -/
theorem lineLoop_ok (U : Unicode) : ∀ (fuel : Nat) (first : Bool) (buf : Bytes) (s s1 : Sip) (r r1 : Rd) (b : Bytes) (o : Nat),
    r.Ok → lineLoop U fuel first buf buf.length s r = (.ok (b, o), s1, r1) →
    ∃ ls blank, b = buf ++ ls ++ blank ∧ o = (buf ++ ls).length ∧ r.all = ls ++ blank ++ r1.all ∧ r1.Ok ∧ r1.cap = r.cap ∧
      r1.final = r.final ∧ (∀ c ∈ blank, c = 13 ∨ c = 10) := by
  intro fuel
  induction fuel with
  | zero => intro first buf s s1 r r1 b o hr h; simp [lineLoop] at h
  | succ fuel ih =>
    intro first buf s s1 r r1 b o hr h
    obtain ⟨l, e, r', g1, g2, g3, g4, g5, g6⟩ := readSlice_cases 10 r hr
    rw [lineLoop_step U fuel first buf buf.length s r r' l e g1] at h
    split at h
    · simp at h
    · split at h
      · rename_i c2
        simp only [Prod.mk.injEq, Res.ok.injEq] at h
        obtain ⟨⟨rfl, rfl⟩, rfl, rfl⟩ := h
        have hl : l = [] := List.eq_nil_of_length_eq_zero c2.2
        exact ⟨[], [], by simp, by simp, by rw [g2, hl]; simp, g3, g4, g5, by simp⟩
      · split at h
        · rename_i c3
          simp only [Prod.mk.injEq, Res.ok.injEq] at h
          obtain ⟨⟨rfl, rfl⟩, rfl, rfl⟩ := h
          refine ⟨[], l, by simp, by simp, by rw [g2]; simp, g3, g4, g5, ?_⟩
          intro c hc
          have := (trim_eq_nil_iff crlf l).1 (List.eq_nil_of_length_eq_zero c3) c hc
          simpa [crlf] using this
        · rcases hp : parseLine U first (trim crlf l) s with ⟨_ | e | _ | _, s2⟩
          · rw [hp] at h
            have h : lineLoop U fuel false (buf ++ l) (buf.length + l.length) s2 r' = (.ok (b, o), s1, r1) := h
            rw [← List.length_append] at h
            obtain ⟨ls, blank, k1, k2, k3, k4, k5, k6, k7⟩ := ih false (buf ++ l) s2 s1 r' r1 b o g3 h
            refine ⟨l ++ ls, blank, by rw [k1]; simp, by rw [k2]; simp, by rw [g2, k3]; simp, k4, by rw [k5, g4],
              by rw [k6, g5], k7⟩
          all_goals (rw [hp] at h; simp at h)

/-- `Parse` gives the same on readers that deliver the same bytes, except for the payload. -/
theorem parse_same (U : Unicode) (s : Sip) (r t : Rd) (hr : r.Ok) (ht : t.Ok) (h : r.Same t) :
    (parse U s r).1 = (parse U s t).1 ∧ { (parse U s r).2.1 with payload := [] } = { (parse U s t).2.1 with payload := [] } := by
  have key : ∀ (b : Bytes) (o : Nat) (s1 : Sip) (r1 t1 : Rd), r1.Ok → t1.Ok → r1.Same t1 →
      (∃ pre blank, b = pre ++ blank ∧ o = pre.length) →
      (finish U b o s1 r1).1 = (finish U b o s1 t1).1 ∧
      { (finish U b o s1 r1).2.1 with payload := [] } = { (finish U b o s1 t1).2.1 with payload := [] } := by
    rintro b o s1 r1 t1 k1 k2 k3 ⟨pre, blank, rfl, rfl⟩
    rcases hf : fillHeader U s1 with ⟨_ | e | _ | _, s2⟩
    · have ha := k3.all
      have hc := k3.final
      rcases finish_cases U pre blank s1 s2 r1 k1 hf with ⟨size, k, r', a1, a2, a3, -⟩ | ⟨size, r', a1, a2, a3, a4⟩ | ⟨e, a1, a2⟩ <;>
        rcases finish_cases U pre blank s1 s2 t1 k2 hf with ⟨size', k', t', b1, b2, b3, -⟩ | ⟨size', t', b1, b2, b3, b4⟩ | ⟨e', b1, b2⟩
      · rw [a3, b3]; exact ⟨rfl, rfl⟩
      · rw [a1] at b1; simp only [Res.ok.injEq] at b1; subst b1
        rw [ha, hc] at a2
        exact absurd a2 (by simp only [not_or]; exact ⟨b2, b3⟩)
      · rw [a1] at b1; simp at b1
      · rw [a1] at b1; simp only [Res.ok.injEq] at b1; subst b1
        rw [← ha, ← hc] at b2
        exact absurd b2 (by simp only [not_or]; exact ⟨a2, a3⟩)
      · rw [a4, b4, hc]; exact ⟨rfl, rfl⟩
      · rw [a1] at b1; simp at b1
      · rw [a1] at b1; simp at b1
      · rw [a1] at b1; simp at b1
      · rw [a1] at b1; simp only [Res.err.injEq] at b1; subst b1
        rw [a2, b2]; exact ⟨rfl, rfl⟩
    all_goals
      rw [finish, finish, hf]
      exact ⟨rfl, rfl⟩
  rw [parse, parse, h.all]
  obtain ⟨q, s1, r1, t1, g1, g2, g3, g4, g5⟩ := lineLoop_same U (t.all.length + 2) true [] 0 s r t hr ht h
  rw [g1, g2]
  rcases q with ⟨b, o⟩ | e | _ | _
  · obtain ⟨ls, blank, k1, k2, -⟩ := lineLoop_ok U _ true [] s s1 r r1 b o hr g1
    exact key b o s1 r1 t1 g3 g4 g5 ⟨ls, blank, by simpa using k1, by simpa using k2⟩
  all_goals exact ⟨rfl, rfl⟩

end Verif.Sips
