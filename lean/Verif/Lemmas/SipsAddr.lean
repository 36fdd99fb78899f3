import Verif.Lemmas.SipsDigest
import Verif.Lemmas.SipsCrlf
import Verif.Spec.SipsAddr
/-! # Addresses and parameters of other senders -/
namespace Verif.Sips
open Verif.Str Verif.Spec Verif.Spec.Sips

/-! ## White space around a text -/

theorem trimSpace_around (a s z : Bytes) (ha : Blanks a) (hz : Blanks z) (h1 : HeadBlack s) (h2 : LastBlack s) :
    trimSpace (a ++ (s ++ z)) = s := by
  obtain ⟨cs, c, rfl, k1, k2⟩ := h1
  obtain ⟨ds, d, e, l1, l2⟩ := h2
  have := utf8_inj e
  subst this
  have hasc : ∀ z : Bytes, Blanks z → ∀ b ∈ z, b < 0x80 := fun z hz b hb => by rcases hz b hb with rfl | rfl <;> decide
  have hw : ∀ z : Bytes, Blanks z → ∀ c ∈ asChars z, decide (White c) = true := by
    intro z hz c hc
    simp only [asChars, List.mem_map] at hc
    obtain ⟨b, hb, rfl⟩ := hc
    rcases hz b hb with rfl | rfl <;> decide
  rw [← utf8_asChars z (hasc z hz), ← utf8_asChars a (hasc a ha), ← utf8_append, ← utf8_append, trimSpace_utf8,
    dropWhile_chars _ _ _ (hw a ha), List.reverse_append, dropWhile_chars _ _ _ (fun c hc => hw z hz c (by simpa using hc)), List.reverse_reverse]
  · intro x hx
    rw [List.head?_reverse, l1] at hx
    obtain rfl := Option.some.inj hx
    simpa using l2
  · intro x hx
    rw [List.head?_append, k1] at hx
    obtain rfl := Option.some.inj hx
    simpa using k2

/-! ## Parameters -/

/-- What `ParseList` makes of a parameter. -/
def AParam.kept (p : AParam) : Bytes := p.name ++ match p.value with
  | none => []
  | some v => 0x3d :: DVal.kept v

theorem listStep_aparam (p : AParam) (h : p.Fits) (t : Bytes) (st : ListSt) (he : st.escape = false) (hq : st.quote = false) :
    (runes (p.wire ++ t)).foldl listStep st =
      (runes t).foldl listStep { st with b := st.b ++ (p.before ++ (AParam.kept p ++ p.after)) } := by
  obtain ⟨before, name, value, after⟩ := p
  have heq : ∀ st : ListSt, st.escape = false → st.quote = false → listStep st (0x3d : UInt8).toNat = { st with b := st.b ++ [0x3d] } :=
    fun st he hq => listStep_plain (c := '=') st he hq (by decide)
  cases value with
  | none =>
    simp only [AParam.wire, List.append_assoc, List.nil_append, AParam.kept]
    rw [listStep_blanks _ h.before _ st he hq, listStep_text h.name.toArgText _ _ (by simpa using he) (by simpa using hq),
      listStep_blanks _ h.after _ _ (by simpa using he) (by simpa using hq)]
    simp
  | some v =>
    simp only [AParam.wire, List.append_assoc, List.cons_append, AParam.kept]
    rw [listStep_blanks _ h.before _ st he hq, listStep_text h.name.toArgText _ _ (by simpa using he) (by simpa using hq),
      runes_ascii_cons (by decide), List.foldl_cons, heq _ (by simpa using he) (by simpa using hq),
      listStep_value _ (h.value v rfl) _ _ (by simpa using he) (by simpa using hq),
      listStep_blanks _ h.after _ _ (by simpa using he) (by simpa using hq)]
    simp

theorem akept_black (p : AParam) (h : p.Fits) : HeadBlack (AParam.kept p) ∧ LastBlack (AParam.kept p) := by
  obtain ⟨before, name, value, after⟩ := p
  cases value with
  | none =>
    simp only [AParam.kept, List.append_nil]
    exact ⟨ArgKey.first h.name, argText_last h.name.toArgText h.name.nonempty⟩
  | some v =>
    simp only [AParam.kept]
    have hv := value_last v (h.value v rfl)
    refine ⟨(ArgKey.first h.name).append (IsUtf8.append (s := [0x3d]) (isUtf8_ascii _ (by decide)) hv.1.isUtf8), ?_⟩
    rw [show name ++ 0x3d :: DVal.kept v = (name ++ [0x3d]) ++ DVal.kept v by simp]
    exact hv.1.append ((argText_isUtf8 h.name.toArgText).append (isUtf8_ascii _ (by decide)))

theorem akept_ne (p : AParam) (h : p.Fits) : AParam.kept p ≠ [] := by
  intro e
  simp only [AParam.kept, List.append_eq_nil_iff] at e
  exact h.name.nonempty e.1

theorem foldl_aparams (ps : List AParam) : ∀ (p : AParam) (st : ListSt), (∀ x ∈ p :: ps, x.Fits) → st.escape = false → st.quote = false →
    st.b = p.before ++ (AParam.kept p ++ p.after) →
    let s := (runes (awire ps)).foldl listStep st
    (s.b ≠ [] ∧ s.list ++ [trimSpace s.b] = st.list ++ (p :: ps).map AParam.kept) := by
  induction ps with
  | nil =>
    intro p st h _ _ hb
    have hp := h p (by simp)
    simp only [awire, List.map_nil, List.flatten_nil, show runes [] = [] from rfl, List.foldl_nil]
    rw [hb, trimSpace_around _ _ _ hp.before hp.after (akept_black p hp).1 (akept_black p hp).2]
    simp [akept_ne p hp]
  | cons q ps ih =>
    intro p st h he hq hb
    have hp := h p (by simp)
    simp only [awire, List.map_cons, List.flatten_cons, List.cons_append]
    rw [runes_ascii_cons (by decide), List.foldl_cons, show (0x3b : UInt8).toNat = 0x3b from rfl, listStep_semi st he hq, hb,
      trimSpace_around _ _ _ hp.before hp.after (akept_black p hp).1 (akept_black p hp).2,
      listStep_aparam q (h q (by simp)) _ _ (by simpa using he) (by simpa using hq)]
    have := ih q { st with list := st.list ++ [AParam.kept p], b := [] ++ (q.before ++ (AParam.kept q ++ q.after)) }
      (fun x hx => h x (List.mem_cons_of_mem _ hx)) he hq (by simp)
    simpa [awire] using this

theorem parseList_aparams (p : AParam) (ps : List AParam) (h : ∀ x ∈ p :: ps, x.Fits) :
    parseList (p.wire ++ awire ps) = (p :: ps).map AParam.kept := by
  have := foldl_aparams ps p { b := [] ++ (p.before ++ (AParam.kept p ++ p.after)) } h rfl rfl (by simp)
  simp only [parseList]
  rw [listStep_aparam p (h p (by simp)) _ {} rfl rfl]
  rw [if_pos this.1]
  exact this.2

/-- The last parameter without the blanks behind it. -/
def trimLast : List AParam → List AParam
  | [] => []
  | [p] => [{ p with after := [] }]
  | p :: q :: ps => p :: trimLast (q :: ps)

def lastAfter : List AParam → Bytes
  | [] => []
  | [p] => p.after
  | _ :: q :: ps => lastAfter (q :: ps)

theorem awire_trimLast : ∀ ps : List AParam, awire ps = awire (trimLast ps) ++ lastAfter ps
  | [] => rfl
  | [p] => by obtain ⟨a, b, c, d⟩ := p; cases c <;> simp [awire, trimLast, lastAfter, AParam.wire]
  | p :: q :: ps => by
    have := awire_trimLast (q :: ps)
    simp only [awire, List.map_cons, List.flatten_cons, trimLast, lastAfter] at this ⊢
    rw [this]; simp

theorem trimLast_fits : ∀ ps : List AParam, (∀ x ∈ ps, x.Fits) → (∀ x ∈ trimLast ps, x.Fits) ∧ Blanks (lastAfter ps) ∧
    (trimLast ps).map AParam.kept = ps.map AParam.kept ∧ ((∀ x, (trimLast ps).getLast? = some x → x.after = []))
  | [], _ => ⟨by simp [trimLast], by simp [lastAfter, Blanks], rfl, by simp [trimLast]⟩
  | [p], h => by
    have hp := h p (by simp)
    exact ⟨by simp only [trimLast, List.mem_singleton]; rintro x rfl; exact ⟨hp.before, by simp [Blanks], hp.name, hp.value⟩, hp.after, rfl, by simp [trimLast]⟩
  | p :: q :: ps, h => by
    obtain ⟨h1, h2, h3, h4⟩ := trimLast_fits (q :: ps) fun x hx => h x (by simp [hx])
    refine ⟨?_, h2, by rw [trimLast, List.map_cons, h3]; rfl, ?_⟩
    · intro x hx
      rw [trimLast, List.mem_cons] at hx
      rcases hx with rfl | hx
      · exact h x (by simp)
      · exact h1 x hx
    · intro x hx
      rw [trimLast, List.getLast?_cons] at hx
      cases hc : (trimLast (q :: ps)).getLast? with
      | none =>
        have := List.getLast?_eq_none_iff.1 hc
        cases ps <;> simp [trimLast] at this
      | some y => rw [hc] at hx; simp at hx; subst hx; exact h4 _ hc

theorem awire_utf8 (p : AParam) (h : p.Fits) : IsUtf8 p.wire := by
  have hb : ∀ s, Blanks s → IsUtf8 s := fun s hs => isUtf8_ascii _ fun b hb => by rcases hs b hb with rfl | rfl <;> decide
  obtain ⟨before, name, value, after⟩ := p
  cases value with
  | none => exact (((hb _ h.before).append (argText_isUtf8 h.name.toArgText)).append ⟨[], rfl⟩).append (hb _ h.after)
  | some v =>
    exact (((hb _ h.before).append (argText_isUtf8 h.name.toArgText)).append
      (IsUtf8.append (s := [0x3d]) (isUtf8_ascii _ (by decide)) (value_last v (h.value v rfl)).2.isUtf8)).append (hb _ h.after)

theorem wire_last' (p : AParam) (h : p.Fits) (ha : p.after = []) : LastBlack p.wire := by
  have hb : ∀ s, Blanks s → IsUtf8 s := fun s hs => isUtf8_ascii _ fun b hb => by rcases hs b hb with rfl | rfl <;> decide
  obtain ⟨before, name, value, after⟩ := p
  simp only at ha
  subst ha
  cases value with
  | none =>
    simp only [AParam.wire, List.append_nil]
    exact (argText_last h.name.toArgText h.name.nonempty).append (hb _ h.before)
  | some v =>
    simp only [AParam.wire, List.append_nil]
    rw [show before ++ name ++ 0x3d :: v.wire = (before ++ (name ++ [0x3d])) ++ v.wire by simp]
    exact (value_last v (h.value v rfl)).2.append ((hb _ h.before).append ((argText_isUtf8 h.name.toArgText).append (isUtf8_ascii _ (by decide))))

theorem join_last (p : AParam) (ps : List AParam) (h : ∀ x ∈ p :: ps, x.Fits) (ha : ∀ x, (p :: ps).getLast? = some x → x.after = []) :
    LastBlack (p.wire ++ awire ps) := by
  have := joined_black 0x3b (by decide) (ps.map AParam.wire) p.wire (awire_utf8 p (h p (by simp)))
    (by
      intro x hx
      obtain ⟨q, hq, rfl⟩ := List.mem_map.1 hx
      exact awire_utf8 q (h q (by simp [hq])))
    (by
      intro x hx
      rw [← List.map_cons (f := AParam.wire), List.getLast?_map] at hx
      obtain ⟨q, hq, rfl⟩ := Option.map_eq_some_iff.1 hx
      exact wire_last' q (h q (List.mem_of_getLast? hq)) (ha q hq))
  rw [List.map_map] at this
  exact this

theorem join_head (p : AParam) (ps : List AParam) (h : ∀ x ∈ p :: ps, x.Fits) (hb : p.before = []) : HeadBlack (p.wire ++ awire ps) := by
  have hp := h p (by simp)
  have := joined_utf8 0x3b (by decide) (ps.map AParam.wire) (by
      intro x hx
      obtain ⟨q, hq, rfl⟩ := List.mem_map.1 hx
      exact awire_utf8 q (h q (by simp [hq])))
  rw [List.map_map] at this
  refine HeadBlack.append ?_ this
  have hbl : ∀ s, Blanks s → IsUtf8 s := fun s hs => isUtf8_ascii _ fun b hb => by rcases hs b hb with rfl | rfl <;> decide
  obtain ⟨before, name, value, after⟩ := p
  simp only at hb
  subst hb
  cases value with
  | none =>
    simp only [AParam.wire, List.append_nil, List.nil_append]
    exact (ArgKey.first hp.name).append (hbl _ hp.after)
  | some v =>
    simp only [AParam.wire, List.nil_append, List.append_assoc]
    exact (ArgKey.first hp.name).append ((IsUtf8.append (s := [0x3d]) (isUtf8_ascii _ (by decide)) (value_last v (hp.value v rfl)).2.isUtf8).append (hbl _ hp.after))

theorem pairLoop_aparams (ps : List AParam) : ∀ m : Args, (∀ p ∈ ps, p.Fits) → (m.map Prod.fst ++ ps.map AParam.name).Nodup →
    pairLoop (ps.map AParam.kept) m = .ok (m ++ ps.map AParam.den) := by
  induction ps with
  | nil => intro m _ _; simp [pairLoop]
  | cons p ps ih =>
    intro m h hd
    have hp := h p (by simp)
    have hf : p.name ∉ m.map Prod.fst := fun hm => (List.nodup_append.mp hd).2.2 _ hm _ (by simp) rfl
    have hstep : parsePair m (AParam.kept p) = .ok (m ++ [AParam.den p]) := by
      obtain ⟨before, name, value, after⟩ := p
      cases value with
      | none =>
        simp only [AParam.kept, List.append_nil, AParam.den, parsePair]
        rw [index_not_mem hp.name.noEq, if_pos (by decide), mset_fresh m _ _ hf]
      | some v =>
        have hv := hp.value v rfl
        have hne : ¬ (DVal.kept v = [] ∨ DVal.kept v = [0x22]) := by
          rintro (e | e)
          · exact kept_ne _ hv e
          · revert e hv
            cases v with
            | token t => intro hv e; exact (argText_not_mem hv.2).2.1 (by simp only [DVal.kept] at e; rw [e]; simp)
            | quoted cs => intro _ e; simp [DVal.kept] at e
        simp only [AParam.kept, AParam.den]
        rw [parsePair_eq m _ _ hp.name.noEq, if_neg hne, unquoted_kept _ hv, mset_fresh m _ _ hf]
    simp only [List.map_cons, pairLoop]
    rw [hstep, Res.bind_ok, ih _ (fun x hx => h x (by simp [hx])) (by simpa [AParam.den] using hd)]
    simp

/-- The parameters of other senders. -/
theorem parseArgs_aparams (ps : List AParam) (h : AParams ps) : parseArgs (awire ps) = .ok (ps.map AParam.den) := by
  cases ps with
  | nil => rfl
  | cons p ps =>
    have hsplit := parseArgs_split [] (p.wire ++ awire ps) (by simp)
    rw [List.nil_append] at hsplit
    rw [show awire (p :: ps) = 0x3b :: (p.wire ++ awire ps) by simp [awire], hsplit]
    -- the same without the outer blanks
    obtain ⟨k1, k2, k3, k4⟩ := trimLast_fits (p :: ps) h.fits
    have hw := awire_trimLast (p :: ps)
    obtain ⟨q, qs, hq⟩ : ∃ q qs, trimLast (p :: ps) = q :: qs := by cases ps <;> exact ⟨_, _, rfl⟩
    rw [hq] at k1 k3 k4 hw
    have hfit : ∀ x ∈ ({ q with before := [] } : AParam) :: qs, x.Fits := by
      intro x hx
      rcases List.mem_cons.1 hx with rfl | hx
      · have := k1 q (by simp); exact ⟨by simp [Blanks], this.after, this.name, this.value⟩
      · exact k1 x (by simp [hx])
    have hlast : ∀ x, (({ q with before := [] } : AParam) :: qs).getLast? = some x → x.after = [] := by
      intro x hx
      cases qs with
      | nil => simp at hx; subst hx; exact k4 q rfl
      | cons r rs => rw [List.getLast?_cons_cons] at hx; exact k4 x (by rw [List.getLast?_cons_cons]; exact hx)
    have hjoin : p.wire ++ awire ps = q.before ++ ((({ q with before := [] } : AParam).wire ++ awire qs) ++ lastAfter (p :: ps)) := by
      have : (0x3b : UInt8) :: (p.wire ++ awire ps) = 0x3b :: (q.wire ++ awire qs ++ lastAfter (p :: ps)) := by
        have e1 : awire (p :: ps) = 0x3b :: (p.wire ++ awire ps) := by simp [awire]
        have e2 : awire (q :: qs) = 0x3b :: (q.wire ++ awire qs) := by simp [awire]
        rw [← e1, hw, e2]; simp
      have := (List.cons.inj this).2
      rw [this]
      simp [AParam.wire]
    rw [parseArgsPairs, hjoin, trimSpace_around _ _ _ (k1 q (by simp)).before k2 (join_head _ _ hfit rfl) (join_last _ _ hfit hlast),
      parseList_aparams _ _ hfit, List.map_cons, show AParam.kept { q with before := [] } = AParam.kept q from rfl, ← List.map_cons, k3]
    exact pairLoop_aparams (p :: ps) [] h.fits (by simpa using h.distinct)

/-! ## Addresses -/

/-- The loop of `NewSIPUser` ends, from this state, with this result. -/
def UEnds (s : Bytes) (st : Field) (p : Parts) (q : Parts × Bytes) : Prop := ∃ f, userLoop f s st p = .ok q

theorem newSIPUser_ends {s rest : Bytes} {q : Parts} {a : Args} (h : UEnds s .base {} (q, rest)) (ha : parseArgs s = .ok a) :
    newSIPUser s = .ok ⟨q.uriType, [], q.user, q.host, q.port, a⟩ := by
  obtain ⟨f, hf⟩ := h
  obtain ⟨q', hq', hn⟩ := userLoop_total (2 * s.length + 1) s .base {} (by omega) (by simp) (by simp) rfl (by simp)
  have e1 := userLoop_mono f s .base {} (f + (2 * s.length + 1)) (by omega) (by rw [hf]; simp)
  have e2 := userLoop_mono (2 * s.length + 1) s .base {} (f + (2 * s.length + 1)) (by omega) (by rw [hq']; simp)
  rw [e1, hf, hq'] at e2
  obtain ⟨rfl, -⟩ := Prod.mk.inj (Res.ok.inj e2)
  simp only [newSIPUser, hq', Res.bind_ok, tail_args, hn, ha]
  simp

theorem ends_nil (st : Field) (p : Parts) : UEnds [] st p (p, []) := ⟨1, rfl⟩

theorem ends_semi (r : Bytes) (st : Field) (p : Parts) : UEnds (0x3b :: r) st p (p, 0x3b :: r) := ⟨1, by rw [userLoop_cons, if_pos rfl]⟩

theorem ends_awire (ps : List AParam) (st : Field) (p : Parts) : UEnds (awire ps) st p (p, awire ps) := by
  cases ps with
  | nil => exact ends_nil st p
  | cons x xs => exact ends_semi _ st p

theorem ends_close {r : Bytes} {st : Field} {p : Parts} {q : Parts × Bytes} (hst : st ≠ .name) {b : UInt8} (hb : b = 0x20 ∨ b = 0x3e)
    (h : UEnds r .base p q) : UEnds (b :: r) st p q := by
  obtain ⟨f, hf⟩ := h
  refine ⟨f + 1, ?_⟩
  rw [userLoop_cons, if_neg (by rcases hb with rfl | rfl <;> decide), if_pos (by rcases hb with rfl | rfl <;> simp [hst])]
  exact hf

theorem ends_close_awire (c : Bytes) (hc : ∀ b ∈ c, b = 0x20 ∨ b = 0x3e) (ps : List AParam) : ∀ (st : Field) (p : Parts), st ≠ .name →
    UEnds (c ++ awire ps) st p (p, awire ps) := by
  induction c with
  | nil => intro st p _; exact ends_awire ps st p
  | cons b c ih => intro st p hst; exact ends_close hst (hc b (by simp)) (ih (fun x hx => hc x (by simp [hx])) .base p (by decide))

/-- A character of the text in front of the URI. -/
theorem ends_skip {r : Bytes} {p : Parts} {q : Parts × Bytes} {b : UInt8} (hs : scheme (b :: r) = .ok none) (hb : b ≠ 0x3b) (hp : p.uriType ≠ [])
    (h : UEnds r .base p q) : UEnds (b :: r) .base p q := by
  by_cases h2 : b = 0x20 ∨ b = 0x3e
  · exact ends_close (by decide) h2 h
  obtain ⟨f, hf⟩ := h
  have h3 : ¬ (b = 0x3e ∨ (b = 0x20 ∧ Field.base ≠ .name)) := by
    rintro (e | ⟨e, -⟩)
    · exact h2 (.inr e)
    · exact h2 (.inl e)
  by_cases hq : b = 0x22
  · refine ⟨(f + 1) + 1, ?_⟩
    rw [userLoop_cons, if_neg hb, if_neg h3]
    simp only [hs, Res.bind_ok]
    rw [if_pos (Or.inl hq), userLoop_cons, if_neg hb, if_neg (by rw [hq]; decide)]
    simp only
    rw [if_pos (Or.inl hq)]
    exact hf
  · refine ⟨f + 1, ?_⟩
    rw [userLoop_cons, if_neg hb, if_neg h3]
    simp only [hs, Res.bind_ok]
    rw [if_neg (by simp [hq, hp])]
    exact hf

/-- No scheme starts inside a text without `:` in front of a scheme. -/
theorem scheme_before {y t : Bytes} (ht : t ∈ schemes) (hy : (0x3a : UInt8) ∉ y) (hne : y ≠ []) (r : Bytes) :
    scheme (y ++ (t ++ 0x3a :: r)) = .ok none := by
  obtain ⟨o, ho⟩ := scheme_total (y ++ (t ++ 0x3a :: r))
  cases o with
  | none => exact ho
  | some p =>
    obtain ⟨t', r'⟩ := p
    obtain ⟨ht', he⟩ := scheme_some ho
    exfalso
    have h3a : ∀ t ∈ schemes, (0x3a : UInt8) ∉ t := by decide
    have i1 : index 0x3a (y ++ (t ++ 0x3a :: r)) = (y ++ t).length := by
      rw [← List.append_assoc]
      exact index_append (by simp only [List.mem_append, not_or]; exact ⟨hy, h3a t ht⟩) r
    have i2 : index 0x3a (t' ++ b!":" ++ r') = t'.length := by rw [List.append_assoc]; exact index_append (h3a t' ht') r'
    rw [he, i2] at i1
    have hlen : t'.length = (y ++ t).length := by omega
    have e : y ++ t = t' := by
      have := congrArg (List.take t'.length) he
      rw [← List.append_assoc, List.append_assoc t', List.take_left] at this
      rw [hlen, List.take_left] at this
      exact this
    obtain ⟨c, y', rfl⟩ := List.exists_cons_of_ne_nil hne
    simp only [schemes, List.mem_cons, List.not_mem_nil, or_false] at ht ht'
    have l : y'.length + 1 + t.length = t'.length := by rw [← e]; simp; omega
    rcases ht with rfl | rfl | rfl <;> rcases ht' with rfl | rfl | rfl <;> simp only [List.length_cons, List.length_nil] at l <;>
      first | omega | (have : y' = [] := List.length_eq_zero_iff.1 (by omega); subst this; simp at e)

theorem ends_lead {t r : Bytes} (ht : t ∈ schemes) {p : Parts} {q : Parts × Bytes} (hp : p.uriType ≠ [])
    (h : UEnds (t ++ 0x3a :: r) .base p q) : ∀ lead : Bytes, (∀ b ∈ lead, b ≠ 0x3a ∧ b ≠ 0x3b) → UEnds (lead ++ (t ++ 0x3a :: r)) .base p q
  | [], _ => h
  | b :: lead, hl => by
    refine ends_skip ?_ (hl b (by simp)).2 hp (ends_lead ht hp h lead fun x hx => hl x (by simp [hx]))
    exact scheme_before ht (fun hm => (hl _ hm).1 rfl) (by simp) r

theorem ends_scheme {t r : Bytes} (ht : t ∈ schemes) {p : Parts} {q : Parts × Bytes} (h : UEnds r .user { p with uriType := t } q) :
    UEnds (t ++ 0x3a :: r) .base p q := by
  obtain ⟨b, t', hb, hb1, hb2, hb3⟩ := scheme_first ht
  obtain ⟨f, hf⟩ := h
  have hs := scheme_of ht r
  refine ⟨f + 1, ?_⟩
  rw [List.append_assoc, List.singleton_append] at hs
  rw [hb, List.cons_append] at hs ⊢
  rw [userLoop_cons, if_neg hb1, if_neg (by simp [hb2, hb3])]
  simp only [hs, Res.bind_ok]
  rw [← hb]
  exact hf

theorem ends_user {u r : Bytes} (hu : ∀ b ∈ u, b ≠ 0x20 ∧ b ≠ 0x3b ∧ b ≠ 0x3e ∧ b ≠ 0x40) {p : Parts} {q : Parts × Bytes}
    (h : UEnds r .host { p with user := p.user ++ u } q) : UEnds (u ++ 0x40 :: r) .user p q := by
  obtain ⟨f, hf⟩ := h
  refine ⟨u.length + (f + 1), ?_⟩
  rw [userLoop_user u (fun b hb => by obtain ⟨h1, h2, h3, h4⟩ := hu b hb; exact ⟨h2, h4, h3, h1⟩), userLoop_cons, if_neg (by decide), if_neg (by decide)]
  simp only [if_true]
  exact hf

theorem ends_host {u port r : Bytes} (hu : ∀ b ∈ u, b ≠ 0x20 ∧ b ≠ 0x3a ∧ b ≠ 0x3b ∧ b ≠ 0x3e)
    (hport : ∀ b ∈ port, b ≠ 0x20 ∧ b ≠ 0x3b ∧ b ≠ 0x3e) {p : Parts} {q : Parts × Bytes}
    (h : ∀ st, st ≠ .name → UEnds r st { p with host := p.host ++ u, port := p.port ++ port } q) : UEnds (u ++ (portText port ++ r)) .host p q := by
  by_cases hp : port = []
  · subst hp
    obtain ⟨f, hf⟩ := h .host (by decide)
    refine ⟨u.length + f, ?_⟩
    rw [userLoop_host u (fun b hb => by obtain ⟨h1, h2, h3, h4⟩ := hu b hb; exact ⟨h3, h2, h4, h1⟩), portText, if_pos rfl, List.nil_append, ← hf]
    simp
  · obtain ⟨f, hf⟩ := h .port (by decide)
    refine ⟨u.length + ((port.length + f) + 1), ?_⟩
    rw [userLoop_host u (fun b hb => by obtain ⟨h1, h2, h3, h4⟩ := hu b hb; exact ⟨h3, h2, h4, h1⟩), portText, if_neg hp, List.cons_append, userLoop_cons,
      if_neg (by decide), if_neg (by decide)]
    simp only [if_true]
    rw [userLoop_port port (fun b hb => by obtain ⟨h1, h2, h3⟩ := hport b hb; exact ⟨h2, h3, h1⟩)]
    exact hf

/-- The parts of an address in front of anything. -/
theorem ends_uri {lead t u host port r : Bytes} (hl : ∀ b ∈ lead, b ≠ 0x3a ∧ b ≠ 0x3b) (ht : t ∈ schemes)
    (hu : ∀ b ∈ u, b ≠ 0x20 ∧ b ≠ 0x3b ∧ b ≠ 0x3e ∧ b ≠ 0x40) (hh : ∀ b ∈ host, b ≠ 0x20 ∧ b ≠ 0x3a ∧ b ≠ 0x3b ∧ b ≠ 0x3e)
    (hport : ∀ b ∈ port, b ≠ 0x20 ∧ b ≠ 0x3b ∧ b ≠ 0x3e) {p : Parts} {q : Parts × Bytes} (hp : p.uriType ≠ [])
    (h : ∀ st, st ≠ .name → UEnds r st { p with uriType := t, user := p.user ++ u, host := p.host ++ host, port := p.port ++ port } q) :
    UEnds (lead ++ (t ++ 0x3a :: (u ++ 0x40 :: (host ++ (portText port ++ r))))) .base p q :=
  ends_lead ht hp (ends_scheme ht (ends_user hu (ends_host hh hport h))) lead hl

/-! ## Via values -/

/-- The loop of `NewSIPVia` ends, from this state, with this result. -/
def VEnds (s : Bytes) (st : Field) (p : Via) (q : Via × Bytes) : Prop := ∃ f, viaLoop f s st p = .ok q

theorem newSIPVia_ends {s rest : Bytes} {q : Via} {a : Args} (h : VEnds s .base ⟨[], [], [], []⟩ (q, rest)) (ha : parseArgs rest = .ok a) :
    newSIPVia s = .ok { q with args := a } := by
  obtain ⟨f, hf⟩ := h
  obtain ⟨q', n, hq'⟩ := viaLoop_total (s.length + 1) s .base ⟨[], [], [], []⟩ (by omega)
  have e1 := viaLoop_mono f s .base ⟨[], [], [], []⟩ (f + (s.length + 1)) (by omega) (by rw [hf]; simp)
  have e2 := viaLoop_mono (s.length + 1) s .base ⟨[], [], [], []⟩ (f + (s.length + 1)) (by omega) (by rw [hq']; simp)
  rw [e1, hf, hq'] at e2
  obtain ⟨rfl, rfl⟩ := Prod.mk.inj (Res.ok.inj e2)
  have hif : (if 0 < (fromSemi (s.drop n)).length then parseArgs (fromSemi (s.drop n)) else .ok []) = Res.ok a := by
    split
    · exact ha
    · next hz =>
      rw [List.length_eq_zero_iff.1 (by omega : (fromSemi (s.drop n)).length = 0)] at ha
      rw [← ha]; rfl
  simp only [newSIPVia, hq', Res.bind_ok, hif]

theorem vends_awire (ps : List AParam) (st : Field) (p : Via) : VEnds (awire ps) st p (p, awire ps) := by
  cases ps with
  | nil => exact ⟨1, rfl⟩
  | cons x xs => exact ⟨1, by rw [show awire (x :: xs) = 0x3b :: (x.wire ++ awire xs) by simp [awire], viaLoop_cons, if_pos rfl]⟩

theorem vends_spaces {r : Bytes} {st : Field} {p : Via} {q : Via × Bytes} (h : VEnds r st p q) : ∀ s, Spaces s → VEnds (s ++ r) st p q
  | [], _ => h
  | b :: s, hs => by
    obtain ⟨f, hf⟩ := vends_spaces h s fun x hx => hs x (by simp [hx])
    obtain rfl := hs b (by simp)
    exact ⟨f + 1, by rw [List.cons_append, viaLoop_cons, if_neg (by decide), if_pos rfl, hf]⟩

theorem vends_host {u r : Bytes} (hu : ∀ b ∈ u, b ≠ 0x20 ∧ b ≠ 0x3a ∧ b ≠ 0x3b) {p : Via} {q : Via × Bytes}
    (h : VEnds r .host { p with host := p.host ++ u } q) : VEnds (u ++ r) .host p q := by
  obtain ⟨f, hf⟩ := h
  exact ⟨u.length + f, by rw [viaLoop_host u (fun b hb => by obtain ⟨h1, h2, h3⟩ := hu b hb; exact ⟨h3, h2, h1⟩), hf]⟩

theorem vends_port {u r : Bytes} (hu : ∀ b ∈ u, b ≠ 0x20 ∧ b ≠ 0x3b) {p : Via} {q : Via × Bytes}
    (h : VEnds r .port { p with port := p.port ++ u } q) : VEnds (u ++ r) .port p q := by
  obtain ⟨f, hf⟩ := h
  exact ⟨u.length + f, by rw [viaLoop_port u (fun b hb => ⟨(hu b hb).2, (hu b hb).1⟩), hf]⟩

theorem vends_colon {r : Bytes} {p : Via} {q : Via × Bytes} (h : VEnds r .port p q) : VEnds (0x3a :: r) .host p q := by
  obtain ⟨f, hf⟩ := h
  exact ⟨f + 1, by rw [viaLoop_cons, if_neg (by decide), if_neg (by decide)]; simpa using hf⟩

theorem vends_start {t r : Bytes} (ht : t ∈ transports) {p : Via} {q : Via × Bytes} (h : VEnds r .host { p with trans := t } q) :
    VEnds (b!"SIP/2.0/" ++ (t ++ r)) .base p q := by
  obtain ⟨f, hf⟩ := h
  refine ⟨f + 1, ?_⟩
  simp only [List.cons_append]
  rw [viaLoop_cons, if_neg (by decide), if_neg (by decide), show (8 : Int) = ((8 : Nat) : Int) from rfl]
  simp only [substring_take, Res.bind_ok]
  simp only [List.take_succ_cons, List.take_zero, List.drop_succ_cons, List.drop_zero, List.nil_append, if_true]
  rw [viaTrans_known ht, Res.bind_ok]
  exact hf

/-- Without `SIP/2.0/` nothing is read. -/
theorem vends_none (ps : List AParam) (p : Via) : ∀ s : Bytes, (0x3b : UInt8) ∉ s → (∀ x y, s ++ awire ps ≠ x ++ b!"SIP/2.0/" ++ y) →
    VEnds (s ++ awire ps) .base p (p, awire ps)
  | [], _, _ => vends_awire ps .base p
  | b :: s, hs, hn => by
    obtain ⟨f, hf⟩ := vends_none ps p s (fun h => hs (by simp [h])) (fun x y e => hn (b :: x) y (by simp [e]))
    refine ⟨f + 1, ?_⟩
    rw [List.cons_append, viaLoop_cons, if_neg (fun e => hs (by simp [e]))]
    split
    · exact hf
    · rw [show (8 : Int) = ((8 : Nat) : Int) from rfl]
      simp only [substring_take, Res.bind_ok]
      rw [if_neg, hf]
      intro e
      refine hn [] ((b :: (s ++ awire ps)).drop 8) ?_
      rw [List.nil_append, ← e, List.cons_append, List.take_append_drop]

end Verif.Sips
