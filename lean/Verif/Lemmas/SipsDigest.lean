import Verif.Lemmas.SipsPanic
import Verif.Spec.SipsDigest
/-! # Parsing Digest credentials -/
namespace Verif.Sips
open Verif.Str Verif.Spec Verif.Spec.Sips

/-- Outside quotes blanks go to the buffer. -/
theorem listStep_blank (st : ListSt) (he : st.escape = false) (hq : st.quote = false) {b : UInt8} (hb : b = 0x20 ∨ b = 9) :
    listStep st b.toNat = { st with b := st.b ++ [b] } := by
  rcases hb with rfl | rfl <;> simp [listStep, he, hq, encodeRune]

theorem listStep_blanks (s : Bytes) (hs : ∀ b ∈ s, b = 0x20 ∨ b = 9) (t : Bytes) : ∀ st : ListSt, st.escape = false → st.quote = false →
    (runes (s ++ t)).foldl listStep st = (runes t).foldl listStep { st with b := st.b ++ s } := by
  induction s with
  | nil => intro st _ _; simp
  | cons b s ih =>
    intro st he hq
    have hb : b < 0x80 := by rcases hs b (by simp) with rfl | rfl <;> decide
    rw [List.cons_append, runes_ascii_cons hb, List.foldl_cons, listStep_blank st he hq (hs b (by simp)),
      ih (fun x hx => hs x (by simp [hx])) _ (by simpa using he) (by simpa using hq)]
    simp

theorem listStep_comma (st : ListSt) (he : st.escape = false) (hq : st.quote = false) :
    listStep st 0x2c = { st with list := st.list ++ [trimSpace st.b], b := [] } := by
  simp [listStep, he, hq]

/-- Inside quotes the characters meant go to the buffer. -/
theorem listStep_quoted (cs : List (Bool × Char)) (h : (DVal.quoted cs).Fits) (t : Bytes) : ∀ st : ListSt, st.escape = false → st.quote = true →
    (runes ((cs.map fun c => if c.1 then 0x5c :: utf8 [c.2] else utf8 [c.2]).flatten ++ t)).foldl listStep st =
      (runes t).foldl listStep { st with b := st.b ++ utf8 (cs.map Prod.snd) } := by
  induction cs with
  | nil => intro st _ _; simp [utf8_nil]
  | cons c cs ih =>
    intro st he hq
    obtain ⟨e, c⟩ := c
    have h2 := h (e, c) (by simp)
    have hu : utf8 [c] = String.utf8EncodeChar c := by rw [utf8_cons, utf8_nil, List.append_nil]
    have hstep : ∀ t, (runes ((if e then 0x5c :: utf8 [c] else utf8 [c]) ++ t)).foldl listStep st =
        (runes t).foldl listStep { st with b := st.b ++ utf8 [c] } := by
      intro t
      cases e with
      | true =>
        simp only [if_true, hu, List.cons_append]
        rw [runes_ascii_cons (by decide), runes_char, List.foldl_cons, List.foldl_cons]
        congr 1
        simp [listStep, he, hq, encodeRune_char]
      | false =>
        obtain ⟨n1, n2⟩ := h2 rfl
        have n1 : c.toNat ≠ 0x22 := fun e => n1 (Char.ext (UInt32.toNat_inj.1 e))
        have n2 : c.toNat ≠ 0x5c := fun e => n2 (Char.ext (UInt32.toNat_inj.1 e))
        simp only [Bool.false_eq_true, if_false, hu]
        rw [runes_char, List.foldl_cons]
        congr 1
        simp [listStep, he, hq, n1, n2, encodeRune_char]
    rw [List.map_cons, List.flatten_cons, List.append_assoc, hstep,
      ih (fun x hx => h x (by simp [hx])) _ (by simpa using he) (by simpa using hq)]
    simp [utf8]

/-- What `ParseList` makes of a value: quotes stay, backslashes go. -/
def DVal.kept : DVal → Bytes
  | .token t => t
  | .quoted cs => [0x22] ++ utf8 (cs.map Prod.snd) ++ [0x22]

theorem listStep_value (v : DVal) (h : v.Fits) (t : Bytes) (st : ListSt) (he : st.escape = false) (hq : st.quote = false) :
    (runes (v.wire ++ t)).foldl listStep st = (runes t).foldl listStep { st with b := st.b ++ DVal.kept v } := by
  cases v with
  | token x => exact listStep_text h.2 t st he hq
  | quoted cs =>
    have h0 : listStep st 0x22 = { st with quote := true, b := st.b ++ [0x22] } := by simp [listStep, he, hq, encodeRune]
    simp only [DVal.wire, DVal.kept, List.append_assoc, List.cons_append, List.nil_append]
    rw [runes_ascii_cons (by decide), List.foldl_cons, show (0x22 : UInt8).toNat = 0x22 from rfl, h0,
      listStep_quoted cs h _ _ (by simpa using he) rfl, runes_ascii_cons (by decide), List.foldl_cons]
    congr 1
    simp [listStep, he, encodeRune]
    exact hq

def DParam.kept (p : DParam) : Bytes := p.name ++ 0x3d :: DVal.kept p.value

theorem listStep_param (p : DParam) (h : p.Fits) (t : Bytes) (st : ListSt) (he : st.escape = false) (hq : st.quote = false) :
    (runes (p.wire ++ t)).foldl listStep st = (runes t).foldl listStep { st with b := st.b ++ (p.blanks ++ DParam.kept p) } := by
  have heq : ∀ st : ListSt, st.escape = false → st.quote = false → listStep st (0x3d : UInt8).toNat = { st with b := st.b ++ [0x3d] } :=
    fun st he hq => listStep_plain (c := '=') st he hq (by decide)
  simp only [DParam.wire, List.append_assoc, List.cons_append]
  rw [listStep_blanks _ h.blanks _ st he hq, listStep_text h.name.toArgText _ _ (by simpa using he) (by simpa using hq),
    runes_ascii_cons (by decide), List.foldl_cons,
    heq _ (by simpa using he) (by simpa using hq), listStep_value _ h.value _ _ (by simpa using he) (by simpa using hq)]
  simp [DParam.kept]

theorem kept_ne (v : DVal) (h : v.Fits) : DVal.kept v ≠ [] := by
  cases v with
  | token t => exact h.1
  | quoted cs => simp [DVal.kept]

theorem value_last (v : DVal) (h : v.Fits) : LastBlack (DVal.kept v) ∧ LastBlack v.wire := by
  cases v with
  | token t => exact ⟨argText_last h.2 h.1, argText_last h.2 h.1⟩
  | quoted cs =>
    have hq : IsUtf8 [(0x22 : UInt8)] := isUtf8_ascii _ (by decide)
    have hw : IsUtf8 (cs.map fun c => if c.1 then 0x5c :: utf8 [c.2] else utf8 [c.2]).flatten := by
      clear h
      induction cs with
      | nil => exact ⟨[], rfl⟩
      | cons c cs ih =>
        rw [List.map_cons, List.flatten_cons]
        refine IsUtf8.append ?_ ih
        split
        · exact IsUtf8.append (s := [0x5c]) (isUtf8_ascii _ (by decide)) ⟨_, rfl⟩
        · exact ⟨_, rfl⟩
    exact ⟨(lastBlack_ascii (by decide) (by decide)).append (hq.append ⟨_, rfl⟩), (lastBlack_ascii (by decide) (by decide)).append (hq.append hw)⟩

theorem blanks_utf8 (p : DParam) (h : p.Fits) : IsUtf8 p.blanks :=
  isUtf8_ascii _ fun b hb => by rcases h.blanks b hb with rfl | rfl <;> decide

theorem kept_last (p : DParam) (h : p.Fits) : LastBlack (DParam.kept p) := by
  rw [DParam.kept, show p.name ++ 0x3d :: DVal.kept p.value = (p.name ++ [0x3d]) ++ DVal.kept p.value by simp]
  exact (value_last _ h.value).1.append ((argText_isUtf8 h.name.toArgText).append (isUtf8_ascii _ (by decide)))

theorem kept_head (p : DParam) (h : p.Fits) : HeadBlack (DParam.kept p) :=
  (ArgKey.first h.name).append (IsUtf8.append (s := [0x3d]) (isUtf8_ascii _ (by decide)) (value_last _ h.value).1.isUtf8)

theorem wire_last (p : DParam) (h : p.Fits) : LastBlack p.wire := by
  rw [DParam.wire, show p.blanks ++ p.name ++ 0x3d :: p.value.wire = (p.blanks ++ (p.name ++ [0x3d])) ++ p.value.wire by simp]
  exact (value_last _ h.value).2.append ((blanks_utf8 p h).append ((argText_isUtf8 h.name.toArgText).append (isUtf8_ascii _ (by decide))))

theorem dwire_last (p : DParam) (ps : List DParam) (h : ∀ x ∈ p :: ps, x.Fits) : LastBlack (dwire (p :: ps)) := by
  have := joined_black 0x2c (by decide) (ps.map DParam.wire) p.wire (wire_last p (h p (by simp))).isUtf8
    (by
      intro x hx
      obtain ⟨q, hq, rfl⟩ := List.mem_map.1 hx
      exact (wire_last q (h q (by simp [hq]))).isUtf8)
    (by
      intro x hx
      rw [← List.map_cons (f := DParam.wire)] at hx
      obtain ⟨q, hq, rfl⟩ := List.mem_map.1 (List.mem_of_getLast? hx)
      exact wire_last q (h q hq))
  rw [List.map_map] at this
  exact this

theorem dwire_head (p : DParam) (ps : List DParam) (h : ∀ x ∈ p :: ps, x.Fits) (hb : p.blanks = []) : HeadBlack (dwire (p :: ps)) := by
  have hp := h p (by simp)
  have := joined_utf8 0x2c (by decide) (ps.map DParam.wire) (by
      intro x hx
      obtain ⟨q, hq, rfl⟩ := List.mem_map.1 hx
      exact (wire_last q (h q (by simp [hq]))).isUtf8)
  rw [List.map_map] at this
  rw [dwire, DParam.wire, hb, List.nil_append]
  exact ((ArgKey.first hp.name).append (IsUtf8.append (s := [0x3d]) (isUtf8_ascii _ (by decide)) (value_last _ hp.value).2.isUtf8)).append this

theorem trim_param (p : DParam) (h : p.Fits) : trimSpace (p.blanks ++ DParam.kept p) = DParam.kept p :=
  trimSpace_blanks _ _ h.blanks (kept_head p h) (kept_last p h)

theorem foldl_params (ps : List DParam) : ∀ (p : DParam) (st : ListSt), (∀ x ∈ p :: ps, x.Fits) → st.escape = false → st.quote = false →
    st.b = p.blanks ++ DParam.kept p →
    let s := (runes ((ps.map fun p => 0x2c :: p.wire).flatten)).foldl listStep st
    (s.b ≠ [] ∧ s.list ++ [trimSpace s.b] = st.list ++ (p :: ps).map DParam.kept) := by
  induction ps with
  | nil =>
    intro p st h _ _ hb
    simp only [List.map_nil, List.flatten_nil, show runes [] = [] from rfl, List.foldl_nil]
    rw [hb, trim_param p (h p (by simp))]
    simp [DParam.kept]
  | cons q ps ih =>
    intro p st h he hq hb
    simp only [List.map_cons, List.flatten_cons, List.cons_append]
    rw [runes_ascii_cons (by decide), List.foldl_cons, show (0x2c : UInt8).toNat = 0x2c from rfl, listStep_comma st he hq, hb,
      trim_param p (h p (by simp)), listStep_param q (h q (by simp)) _ _ (by simpa using he) (by simpa using hq)]
    have := ih q { st with list := st.list ++ [DParam.kept p], b := [] ++ (q.blanks ++ DParam.kept q) }
      (fun x hx => h x (List.mem_cons_of_mem _ hx)) he hq (by simp)
    simpa using this

theorem parseList_params (p : DParam) (ps : List DParam) (h : ∀ x ∈ p :: ps, x.Fits) :
    parseList (dwire (p :: ps)) = (p :: ps).map DParam.kept := by
  have := foldl_params ps p { b := [] ++ (p.blanks ++ DParam.kept p) } h rfl rfl (by simp)
  simp only [parseList]
  rw [dwire, listStep_param p (h p (by simp)) _ {} rfl rfl]
  rw [if_pos this.1]
  exact this.2

theorem unquoted_kept (v : DVal) (h : v.Fits) : unquoted (DVal.kept v) = v.den := by
  cases v with
  | token t =>
    have : t.head? ≠ some 0x22 := fun e => (argText_not_mem h.2).2.1 (List.mem_of_head? e)
    simp [unquoted, DVal.kept, this, DVal.den]
  | quoted cs =>
    have h1 : (DVal.kept (.quoted cs)).head? = some 0x22 := by simp [DVal.kept]
    have h2 : (DVal.kept (.quoted cs)).getLast? = some 0x22 := by rw [DVal.kept, getLast?_app _ (by simp)]; rfl
    rw [unquoted, if_pos ⟨h1, h2⟩]
    simp only [DVal.kept, List.append_assoc, List.singleton_append, List.drop_succ_cons, List.drop_zero, DVal.den]
    exact List.dropLast_concat

theorem pairLoop_params (ps : List DParam) : ∀ m : Args, (∀ p ∈ ps, p.Fits) → (m.map Prod.fst ++ ps.map DParam.name).Nodup →
    pairLoop (ps.map DParam.kept) m = .ok (m ++ ps.map fun p => (p.name, p.value.den)) := by
  induction ps with
  | nil => intro m _ _; simp [pairLoop]
  | cons p ps ih =>
    intro m h hd
    have hp := h p (by simp)
    have hne : ¬ (DVal.kept p.value = [] ∨ DVal.kept p.value = [0x22]) := by
      rintro (e | e)
      · exact kept_ne _ hp.value e
      · have hv := hp.value
        revert e hv
        cases p.value with
        | token t => intro e hv; exact (argText_not_mem hv.2).2.1 (by simp only [DVal.kept] at e; rw [e]; simp)
        | quoted cs => intro e _; simp [DVal.kept] at e
    have hf : p.name ∉ m.map Prod.fst := fun hm => (List.nodup_append.mp hd).2.2 _ hm _ (by simp) rfl
    simp only [List.map_cons, pairLoop]
    rw [DParam.kept, parsePair_eq m _ _ hp.name.noEq, if_neg hne, Res.bind_ok, unquoted_kept _ hp.value, mset_fresh m _ _ hf,
      ih _ (fun x hx => h x (by simp [hx])) (by simpa using hd)]
    simp

theorem parseArgsPairs_params (ps : List DParam) (h : ∀ p ∈ ps, p.Fits) (hd : (ps.map DParam.name).Nodup) :
    parseArgsPairs (dwire ps) = .ok (ps.map fun p => (p.name, p.value.den)) := by
  cases ps with
  | nil => rfl
  | cons p ps =>
    have hp := h p (by simp)
    have hfit : ∀ x ∈ ({ p with blanks := [] } : DParam) :: ps, x.Fits := by
      intro x hx
      rcases List.mem_cons.1 hx with rfl | hx
      · exact ⟨by simp, hp.name, hp.value⟩
      · exact h x (by simp [hx])
    have hsplit : dwire (p :: ps) = p.blanks ++ dwire ({ p with blanks := [] } :: ps) := by
      simp [dwire, DParam.wire]
    have htrim : trimSpace (dwire (p :: ps)) = dwire ({ p with blanks := [] } :: ps) := by
      rw [hsplit]
      exact trimSpace_blanks _ _ hp.blanks (dwire_head _ _ hfit rfl) (dwire_last _ _ hfit)
    rw [parseArgsPairs, htrim, parseList_params _ _ hfit]
    exact pairLoop_params (p :: ps) [] h (by simpa using hd)

end Verif.Sips
