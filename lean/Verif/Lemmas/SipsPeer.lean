import Verif.Spec.SipsPeer
import Verif.Lemmas.SipsDigest
import Verif.Lemmas.SipsWhole
/-!
# Header sections of other senders
-/
namespace Verif.Sips
open Verif.Str Verif.Spec.Sips

/-! ## The map that belongs to a list of fields -/

/-- The values listed under a key. -/
def under' (ds : List (Bytes × Bytes)) (k : Bytes) : List Bytes := (ds.filter fun d => d.1 == k).map Prod.snd

/-- The map holds exactly the listed values. -/
def Shows (h : Hdr) (ds : List (Bytes × Bytes)) : Prop := ∀ k, mget h k = if under' ds k = [] then none else some (under' ds k)

theorem shows_nil : Shows [] [] := fun _ => rfl

theorem under_append (a b : List (Bytes × Bytes)) (k : Bytes) : under' (a ++ b) k = under' a k ++ under' b k := by simp [under']

theorem under_single (k v q : Bytes) : under' [(k, v)] q = if k = q then [v] else [] := by
  by_cases h : k = q <;> simp [under', h]

theorem Shows.vals {h : Hdr} {ds : List (Bytes × Bytes)} (hs : Shows h ds) (k : Bytes) : vals h k = under' ds k := by
  rw [Sips.vals, hs k]
  split
  · rename_i h; rw [h]; rfl
  · rfl

theorem Shows.put {h : Hdr} {ds : List (Bytes × Bytes)} {k v v' : Bytes} (hs : Shows h (ds ++ [(k, v)])) :
    Shows (mset h k (under' ds k ++ [v'])) (ds ++ [(k, v')]) := by
  intro q
  rw [mget_mset]
  have h1 := hs q
  rw [under_append, under_single] at h1 ⊢
  by_cases hq : k = q
  · subst hq; simp
  · rw [if_neg (Ne.symm hq), h1, if_neg hq, if_neg hq]

theorem Shows.snoc {h : Hdr} {ds : List (Bytes × Bytes)} (k v : Bytes) (hs : Shows h ds) :
    Shows (mset h k (Sips.vals h k ++ [v])) (ds ++ [(k, v)]) := by
  intro q
  rw [mget_mset, hs.vals]
  have h1 := hs q
  rw [under_append, under_single]
  by_cases hq : k = q
  · subst hq; simp
  · rw [if_neg (Ne.symm hq), h1, if_neg hq, List.append_nil]

theorem Shows.getHeader (U : Unicode) {h : Hdr} {ds : List (Bytes × Bytes)} (hs : Shows h ds) (n : Bytes) :
    getHeader U h n = under' ds (toLower U n) ∧ getFirstHeader U h n = (under' ds (toLower U n)).head?.getD [] := by
  simp only [Sips.getHeader, getFirstHeader, hs.vals, hs (toLower U n)]
  cases hu : under' ds (toLower U n) with
  | nil => simp
  | cons v vs => simp

/-! ## Lines -/

/-- The first line of a field, without line end. -/
def fline (f : HField) : Bytes :=
  f.name ++ List.replicate f.pre 0x20 ++ 0x3a :: (List.replicate f.post 0x20 ++ f.value ++ List.replicate f.trail 0x20)

/-- A continuation line, without line end. -/
def cline (c : Cont) : Bytes := c.blanks ++ c.text

/-- The key under which a field is stored. -/
def fkey (f : HField) : Bytes := f.name.map lowerAscii

theorem visible_ne {b : UInt8} (h1 : 0x21 ≤ b) (h2 : b ≤ 0x7e) : b ≠ 10 ∧ b ≠ 13 ∧ b ≠ 0x20 ∧ b ≠ 9 ∧ b < 0x80 := by
  rw [UInt8.le_iff_toNat_le] at h1 h2
  refine ⟨?_, ?_, ?_, ?_, ?_⟩
  · rintro rfl; simp at h1
  · rintro rfl; simp at h1
  · rintro rfl; simp at h1
  · rintro rfl; simp at h1
  · rw [UInt8.lt_iff_toNat_lt]; simp at h2 ⊢; omega

theorem visible_space {b : UInt8} (h1 : 0x21 ≤ b) (h2 : b ≤ 0x7e) : asciiSpace b = false := by
  have := visible_ne h1 h2
  rw [UInt8.le_iff_toNat_le] at h1 h2
  simp only [asciiSpace]
  simp only [Bool.or_eq_false_iff, Bool.and_eq_false_iff, decide_eq_false_iff_not, beq_eq_false_iff_ne, UInt8.le_iff_toNat_le]
  simp at h1 h2
  refine ⟨?_, ?_⟩ <;> simp_all <;> omega

theorem name_lower (U : Unicode) {f : HField} (h : f.Fits) : toLower U f.name = fkey f :=
  toLower_ascii U fun b hb => (visible_ne (h.name.2 b hb).1 (h.name.2 b hb).2.1).2.2.2.2

theorem trim_end (cr : Bool) (s : Bytes) (h1 : ∀ c, s.head? = some c → crlf c = false) (h2 : ∀ c, s.getLast? = some c → crlf c = false) :
    trim crlf (s ++ lineEnd cr) = s := by
  have := trim_mid (cut := crlf) (a := []) (s := s) (b := lineEnd cr) (by simp) (by cases cr <;> simp [lineEnd, crlf]) h1 h2
  simpa using this

theorem lf_end (cr : Bool) : (10 : UInt8) ∉ lineEnd cr := by cases cr <;> simp [lineEnd]

theorem fline_chars {f : HField} (h : f.Fits) : ∀ b ∈ fline f, b ≠ 13 ∧ b ≠ 10 := by
  intro b hb
  simp only [fline, List.mem_append, List.mem_cons, List.mem_replicate] at hb
  rcases hb with (hb | ⟨-, rfl⟩) | rfl | (⟨-, rfl⟩ | hb) | ⟨-, rfl⟩
  · have := visible_ne (h.name.2 b hb).1 (h.name.2 b hb).2.1
    exact ⟨this.2.1, this.1⟩
  · decide
  · decide
  · decide
  · exact h.value.chars b hb
  · decide

theorem cline_chars {c : Cont} (h : c.Fits) : ∀ b ∈ cline c, b ≠ 13 ∧ b ≠ 10 := by
  intro b hb
  rcases List.mem_append.1 hb with hb | hb
  · rcases h.blanks.2 b hb with rfl | rfl <;> decide
  · exact h.text.2 b hb

theorem trim_of_chars (cr : Bool) {s : Bytes} (h : ∀ b ∈ s, b ≠ 13 ∧ b ≠ 10) : trim crlf (s ++ lineEnd cr) = s :=
  trim_end cr s (fun c hc => by have := h c (List.mem_of_head? hc); simp [crlf, this.1, this.2])
    (fun c hc => by have := h c (List.mem_of_getLast? hc); simp [crlf, this.1, this.2])

theorem parseHeader_fline (U : Unicode) (s : Sip) (f : HField) (hf : f.Fits) :
    parseHeader U (fline f) s = match s.headers with
      | none => (.panic, s)
      | some h => (.ok (), { s with headers := some (mset h (fkey f) (Sips.vals h (fkey f) ++ [f.value])), last := fkey f }) := by
  have hc : (0x3a : UInt8) ∉ f.name ++ List.replicate f.pre 0x20 := by
    rw [List.mem_append, List.mem_replicate]
    rintro (hc | ⟨-, hc⟩)
    · exact (hf.name.2 _ hc).2.2 rfl
    · simp at hc
  obtain ⟨x, k', hx⟩ := List.exists_cons_of_ne_nil hf.name.1
  have hx' := visible_ne (hf.name.2 x (by rw [hx]; simp)).1 (hf.name.2 x (by rw [hx]; simp)).2.1
  have hcons : fline f = x :: (k' ++ List.replicate f.pre 0x20 ++ 0x3a :: (List.replicate f.post 0x20 ++ f.value ++ List.replicate f.trail 0x20)) := by
    rw [fline, hx]; simp
  have hidx : index 0x3a (fline f) = ((f.name ++ List.replicate f.pre 0x20).length : Int) := index_append hc _
  have e1 : goSlice (fline f) 0 ((f.name ++ List.replicate f.pre 0x20).length : Int) = .ok (f.name ++ List.replicate f.pre 0x20) :=
    goSlice_prefix _ _ _ rfl
  have e2 : goSlice (fline f) (((f.name ++ List.replicate f.pre 0x20).length : Int) + 1) ((fline f).length : Nat) =
      .ok (List.replicate f.post 0x20 ++ f.value ++ List.replicate f.trail 0x20) := by
    have := goSlice_suffix (f.name ++ List.replicate f.pre 0x20 ++ [0x3a]) (List.replicate f.post 0x20 ++ f.value ++ List.replicate f.trail 0x20)
      ((f.name ++ List.replicate f.pre 0x20).length + 1) (by simp [Nat.add_assoc])
    simpa [fline] using this
  have sp : ∀ n, ∀ c ∈ List.replicate n (0x20 : UInt8), (c == 0x20) = true := by
    intro n c hc
    simp [(List.mem_replicate.1 hc).2]
  have t1 : trim (fun c => c == 0x20) (f.name ++ List.replicate f.pre 0x20) = f.name := by
    have := trim_mid (cut := fun c => c == 0x20) (a := []) (s := f.name) (b := List.replicate f.pre 0x20) (by simp) (sp _)
      (fun c hc' => by
        have := hf.name.2 c (List.mem_of_head? hc')
        simpa using (visible_ne this.1 this.2.1).2.2.1)
      (fun c hc' => by
        have := hf.name.2 c (List.mem_of_getLast? hc')
        simpa using (visible_ne this.1 this.2.1).2.2.1)
    simpa using this
  have t2 : trim (fun c => c == 0x20) (List.replicate f.post 0x20 ++ f.value ++ List.replicate f.trail 0x20) = f.value :=
    trim_mid (cut := fun c => c == 0x20) (sp _) (sp _)
      (fun c hc' => by
        have := hf.value.first
        rw [hc'] at this
        simpa using this)
      (fun c hc' => by
        have := hf.value.last
        rw [hc'] at this
        simpa using this)
  rw [parseHeader.eq_def]
  generalize fline f = l at *
  subst hcons
  simp only
  rw [if_neg (by simp [hx'.2.2.2.1, hx'.2.2.1]), hidx, if_pos (by omega)]
  simp only [GoM.bind_apply, GoM.get_apply, GoM.lift_apply, e1, e2, t1, t2, name_lower U hf, putHeader]
  cases hs : s.headers <;> simp [hs, Sip.hdr, GoM.modify_apply]

theorem parseHeader_field (U : Unicode) (s : Sip) (h : Hdr) (hs : s.headers = some h) (f : HField) (hf : f.Fits) :
    parseHeader U (fline f) s =
      (.ok (), { s with headers := some (mset h (fkey f) (Sips.vals h (fkey f) ++ [f.value])), last := fkey f }) := by
  rw [parseHeader_fline U s f hf, hs]

theorem trimLeftAux_visible (a s : Bytes) (ha : ∀ b ∈ a, b < 0x80 ∧ asciiSpace b = true)
    (hs : ∀ b, s.head? = some b → b < 0x80 ∧ asciiSpace b = false) : ∀ n, a.length ≤ n → trimLeftAux n (a ++ s) = s := by
  induction a with
  | nil => intro n _; simpa using trimLeftAux_keep s n hs
  | cons b a ih =>
    intro n hn
    obtain ⟨m, rfl⟩ : ∃ m, n = m + 1 := ⟨n - 1, by simp at hn; omega⟩
    obtain ⟨h1, h2⟩ := ha b (by simp)
    rw [List.cons_append, trimLeftAux]
    simp only [decodeRune_ascii h1, isSpace_ascii h1, h2, if_true, List.drop_succ_cons, List.drop_zero]
    exact ih (fun c hc => ha c (by simp [hc])) m (by simp at hn; omega)

/-- Blanks in front are removed; the ends of the text are visible ASCII, the rest any bytes. -/
theorem trimSpace_visible (a s : Bytes) (ha : ∀ b ∈ a, b < 0x80 ∧ asciiSpace b = true)
    (hs : ∀ b, s.head? = some b → b < 0x80 ∧ asciiSpace b = false) (hl : ∀ b, s.getLast? = some b → b < 0x80 ∧ asciiSpace b = false) :
    trimSpace (a ++ s) = s := by
  simp only [trimSpace]
  rw [trimLeftAux_visible a s ha hs _ (by simp), trimRightAux_keep s _ hl]

theorem parseHeader_cont (U : Unicode) (s : Sip) (h : Hdr) (hs : s.headers = some h) (c : Cont) (hc : c.Fits) (vs : List Bytes)
    (old : Bytes) (hv : Sips.vals h s.last = vs ++ [old]) :
    parseHeader U (cline c) s = (.ok (), { s with headers := some (mset h s.last (vs ++ [old ++ 0x20 :: c.text])) }) := by
  have ht : trimSpace (cline c) = c.text :=
    trimSpace_visible _ _ (fun b hb => by rcases hc.blanks.2 b hb with rfl | rfl <;> decide)
      (fun b hb => ⟨(visible_ne (hc.first b hb).1 (hc.first b hb).2).2.2.2.2, visible_space (hc.first b hb).1 (hc.first b hb).2⟩)
      (fun b hb => ⟨(visible_ne (hc.last b hb).1 (hc.last b hb).2).2.2.2.2, visible_space (hc.last b hb).1 (hc.last b hb).2⟩)
  obtain ⟨x, bl, hx⟩ := List.exists_cons_of_ne_nil hc.blanks.1
  have hx' := hc.blanks.2 x (by rw [hx]; simp)
  have hcons : cline c = x :: (bl ++ c.text) := by rw [cline, hx]; rfl
  rw [parseHeader.eq_def]
  generalize cline c = l at *
  subst hcons
  simp only
  rw [if_pos hx'.symm]
  simp only [GoM.bind_apply, GoM.get_apply, GoM.lift_apply, Sip.hdr, hs, Option.getD_some, hv, goIndex_last, goSet_last, ht, putHeader]
  rfl

/-- The continuation lines of a field. -/
theorem runLines_conts (U : Unicode) (ds : List (Bytes × Bytes)) : ∀ (cs : List Cont) (s : Sip) (h : Hdr) (v : Bytes),
    s.headers = some h → Shows h (ds ++ [(s.last, v)]) → (∀ c ∈ cs, c.Fits) →
    ∃ h', runLines U false (cs.map cline) s = (.ok (), { s with headers := some h' }) ∧
      Shows h' (ds ++ [(s.last, v ++ (cs.map fun c => 0x20 :: c.text).flatten)]) := by
  intro cs
  induction cs with
  | nil =>
    intro s h v hs hsh _
    refine ⟨h, ?_, by simpa using hsh⟩
    rw [List.map_nil, runLines, ← hs]
  | cons c cs ih =>
    intro s h v hs hsh hf
    have hv : Sips.vals h s.last = under' ds s.last ++ [v] := by
      rw [hsh.vals, under_append, under_single, if_pos rfl]
    have hp : parseLine U false (cline c) s = _ := parseHeader_cont U s h hs c (hf c (by simp)) _ _ hv
    obtain ⟨h', g1, g2⟩ := ih { s with headers := some (mset h s.last (under' ds s.last ++ [v ++ 0x20 :: c.text])) } _
      (v ++ 0x20 :: c.text) rfl hsh.put (fun c' hc' => hf c' (by simp [hc']))
    refine ⟨h', ?_, ?_⟩
    · rw [List.map_cons, runLines, hp]
      exact g1
    · simpa using g2

theorem runLines_append (U : Unicode) : ∀ (a b : List Bytes) (s s1 : Sip), runLines U false a s = (.ok (), s1) →
    runLines U false (a ++ b) s = runLines U false b s1 := by
  intro a
  induction a with
  | nil =>
    intro b s s1 h
    rw [runLines] at h
    obtain ⟨-, rfl⟩ := Prod.mk.inj h
    rfl
  | cons l a ih =>
    intro b s s1 h
    rw [runLines] at h
    rw [List.cons_append, runLines]
    rcases hp : parseLine U false l s with ⟨_ | e | _ | _, s2⟩ <;> rw [hp] at h <;> simp only at h ⊢
    · exact ih b s2 s1 h
    all_goals simp at h

/-- The lines of a field after `Parse` has trimmed them. -/
def trimmed (f : HField) : List Bytes := fline f :: f.conts.map cline

theorem map_trim_lines {f : HField} (hf : f.Fits) : f.lines.map (trim crlf) = trimmed f := by
  rw [HField.lines, List.map_cons, List.map_map, trimmed]
  congr 1
  · exact trim_of_chars f.cr (fline_chars hf)
  · exact List.map_congr_left fun c hc => trim_of_chars c.cr (cline_chars (hf.conts c hc))

/-- The list of keys and values that fields stand for. -/
def pairs (fs : List HField) : List (Bytes × Bytes) := fs.map fun f => (fkey f, f.den)

theorem runLines_fields (U : Unicode) : ∀ (fs : List HField) (ds : List (Bytes × Bytes)) (s : Sip) (h : Hdr), s.headers = some h →
    Shows h ds → (∀ f ∈ fs, f.Fits) →
    ∃ h' last, runLines U false ((fieldLines fs).map (trim crlf)) s = (.ok (), { s with headers := some h', last := last }) ∧
      Shows h' (ds ++ pairs fs) := by
  intro fs
  induction fs with
  | nil =>
    intro ds s h hs hsh _
    refine ⟨h, s.last, ?_, by simpa [pairs] using hsh⟩
    rw [fieldLines, List.map_nil, List.flatten_nil, List.map_nil, runLines, ← hs]
  | cons f fs ih =>
    intro ds s h hs hsh hf
    have hff := hf f (by simp)
    have hp : parseLine U false (fline f) s = _ := parseHeader_field U s h hs f hff
    obtain ⟨h1, g1, g2⟩ := runLines_conts U ds f.conts
      { s with headers := some (mset h (fkey f) (Sips.vals h (fkey f) ++ [f.value])), last := fkey f } _ f.value rfl (hsh.snoc _ _) hff.conts
    obtain ⟨h2, last, k1, k2⟩ := ih (ds ++ [(fkey f, f.den)]) { s with headers := some h1, last := fkey f } h1 rfl g2
      (fun f' hf' => hf f' (by simp [hf']))
    refine ⟨h2, last, ?_, by simpa [pairs] using k2⟩
    have hl : (fieldLines (f :: fs)).map (trim crlf) = fline f :: (f.conts.map cline ++ (fieldLines fs).map (trim crlf)) := by
      rw [fieldLines, List.map_cons, List.flatten_cons, List.map_append, map_trim_lines hff]
      rfl
    rw [hl, runLines, hp]
    simp only
    rw [runLines_append U _ _ _ _ g1]
    exact k1

theorem fieldValues_eq (fs : List HField) (n : Bytes) : under' (pairs fs) (n.map lowerAscii) = fieldValues fs n := by
  rw [under', pairs, fieldValues, List.filter_map, List.map_map]
  rfl

end Verif.Sips
