import Verif.Spec.SipsOrder
import Verif.Props.SipsAccept
/-!
# Property C165: the order of header fields of different names

`Block`, `Reordered` and `Alike` are defined in `Verif/Spec/SipsOrder.lean`.
-/
namespace Verif.Props
open Verif Verif.Str Verif.Sips Verif.Spec Verif.Spec.Sips

theorem alike_refl (s : Sip) : Alike s s := ⟨rfl, rfl, fun _ => rfl⟩

theorem trim_bare {l : Bytes} (h : (10 : UInt8) ∉ l) : trim crlf l = bare l := by
  have key : ∀ m : Bytes, (10 : UInt8) ∉ m → m.dropWhile crlf = m.dropWhile (· == 13) := by
    intro m
    induction m with
    | nil => intro _; rfl
    | cons b m ih =>
      intro hb
      simp only [List.mem_cons, not_or] at hb
      have e : crlf b = (b == 13) := by
        simp only [crlf]
        have : (b == 10) = false := by simpa using fun e => hb.1 e.symm
        simp [this]
      simp only [List.dropWhile_cons, e, ih hb.2]
  unfold trim bare
  rw [key l h, key]
  intro hc
  rw [List.mem_reverse] at hc
  exact h ((List.dropWhile_sublist _).subset hc)

/-- What the head of a field does. -/
theorem parseHeader_head (U : Unicode) (s : Sip) (n v : Bytes) (hn : (0x3a : UInt8) ∉ n) (hi : ¬ Indented (n ++ 0x3a :: v)) :
    parseHeader U (n ++ 0x3a :: v) s = match s.headers with
      | none => (.panic, s)
      | some h => (.ok (), { s with
          headers := some (mset h (toLower U (trim (· == 0x20) n)) (Sips.vals h (toLower U (trim (· == 0x20) n)) ++ [trim (· == 0x20) v])),
          last := toLower U (trim (· == 0x20) n) }) := by
  obtain ⟨x, t, hx⟩ : ∃ x t, n ++ 0x3a :: v = x :: t := by cases n <;> exact ⟨_, _, rfl⟩
  have hidx := index_append hn v
  have e1 : goSlice (n ++ 0x3a :: v) 0 (n.length : Int) = .ok n := by
    unfold goSlice
    rw [if_pos (by simp; omega)]; simp
  have e2 : goSlice (n ++ 0x3a :: v) ((n.length : Int) + 1) ((n ++ 0x3a :: v).length : Nat) = .ok v := by
    unfold goSlice
    rw [if_pos (by simp; omega)]
    rw [show ((n.length : Int) + 1).toNat = n.length + 1 by omega, Int.toNat_natCast, List.take_length]
    simp
  rw [hx] at hidx e1 e2 hi ⊢
  rw [parseHeader.eq_def]
  simp only
  rw [if_neg (by
    intro h
    apply hi
    rcases h with rfl | rfl
    · right; rfl
    · left; rfl), if_pos (by rw [hidx]; omega)]
  simp only [hidx, GoM.bind_apply, GoM.lift_apply, e1, e2, GoM.get_apply, putHeader, Sip.hdr]
  rcases s.headers with _ | h
  · rfl
  · rfl

/-- What a further line of a field does: it leaves all or makes the last value of the field longer by something that depends only on the line. -/
theorem parseHeader_more (U : Unicode) (l : Bytes) (hl : Indented l ∨ (0x3a : UInt8) ∉ l) : ∃ x, ∀ (s : Sip) (h : Hdr) (vs : List Bytes) (old : Bytes),
    s.headers = some h → mget h s.last = some (vs ++ [old]) →
      ∃ h', parseHeader U l s = (.ok (), { s with headers := some h' }) ∧
        ∀ k, mget h' k = if k = s.last then some (vs ++ [old ++ x]) else mget h k := by
  by_cases hi : Indented l
  · refine ⟨0x20 :: trimSpace l, fun s h vs old hs hm => ?_⟩
    obtain ⟨b, t, rfl⟩ : ∃ b t, l = b :: t := by
      cases l with
      | nil => simp [Indented] at hi
      | cons b t => exact ⟨b, t, rfl⟩
    have hv : Sips.vals s.hdr s.last = vs ++ [old] := by
      unfold Sips.vals Sip.hdr
      rw [hs]
      simp [hm]
    have e1 : goIndex (vs ++ [old]) (((vs ++ [old]).length : Int) - 1) = .ok old := by
      unfold goIndex
      rw [if_neg (by simp)]
      simp
    have e2 : ∀ y, goSet (vs ++ [old]) (((vs ++ [old]).length : Int) - 1) y = .ok (vs ++ [y]) := by
      intro y
      unfold goSet
      rw [if_neg (by simp), if_pos (by simp)]
      simp
    refine ⟨mset h s.last (vs ++ [old ++ 0x20 :: trimSpace (b :: t)]), ?_, fun k => mget_mset _ _ _ _⟩
    rw [parseHeader.eq_def]
    simp only
    rw [if_pos (by
      rcases hi with hi | hi
      · right; simpa using hi
      · left; simpa using hi)]
    simp only [GoM.bind_apply, GoM.get_apply, GoM.lift_apply, hv, e1, e2, putHeader, hs]
    rfl
  · have hc : (0x3a : UInt8) ∉ l := hl.resolve_left hi
    refine ⟨[], fun s h vs old hs hm => ⟨h, ?_, fun k => ?_⟩⟩
    · rw [parseHeader.eq_def]
      cases l with
      | nil => simp only; rw [show ({ s with headers := some h } : Sip) = s by rw [← hs]]; rfl
      | cons b t =>
        simp only
        rw [if_neg (by
          intro h
          apply hi
          rcases h with rfl | rfl
          · right; rfl
          · left; rfl), if_neg (by rw [index_not_mem hc]; decide)]
        rw [show ({ s with headers := some h } : Sip) = s by rw [← hs]]; rfl
    · split
      · rename_i e; rw [e, hm]; simp
      · rfl

/-- The lines after the first of a field. -/
theorem runLines_more (U : Unicode) : ∀ (ls : List Bytes), (∀ l ∈ ls, Indented l ∨ (0x3a : UInt8) ∉ l) → ∃ x, ∀ (s : Sip) (h : Hdr)
    (vs : List Bytes) (old : Bytes), s.headers = some h → mget h s.last = some (vs ++ [old]) →
      ∃ h', runLines U false ls s = (.ok (), { s with headers := some h' }) ∧
        ∀ k, mget h' k = if k = s.last then some (vs ++ [old ++ x]) else mget h k
  | [], _ => ⟨[], fun s h vs old hs hm => ⟨h, by rw [show ({ s with headers := some h } : Sip) = s by rw [← hs]]; rfl, fun k => by
      split
      · rename_i e; rw [e, hm]; simp
      · rfl⟩⟩
  | l :: ls, hl => by
    obtain ⟨x, hx⟩ := parseHeader_more U l (hl l (by simp))
    obtain ⟨y, hy⟩ := runLines_more U ls fun m hm => hl m (by simp [hm])
    refine ⟨x ++ y, fun s h vs old hs hm => ?_⟩
    obtain ⟨h1, a1, a2⟩ := hx s h vs old hs hm
    obtain ⟨h2, b1, b2⟩ := hy { s with headers := some h1 } h1 vs (old ++ x) rfl (by rw [a2]; simp)
    refine ⟨h2, ?_, fun k => ?_⟩
    · rw [runLines]
      simp only [parseLine, Bool.false_eq_true, if_false, a1]
      exact b1
    · rw [b2, a2]
      simp only
      split
      · simp
      · rfl

/-- The key under which a field is stored. -/
def blockKey (U : Unicode) (b : Block) : Bytes := toLower U (trim (· == 0x20) b.name)

/-- What a field does to the header map. -/
theorem runLines_block (U : Unicode) (size : Nat) (b : Block) (hb : b.Ok size) : ∃ v, ∀ s : Sip,
    (s.headers = none → runLines U false (b.lines.map (trim crlf)) s = (.panic, s)) ∧
    (∀ h, s.headers = some h → ∃ h', runLines U false (b.lines.map (trim crlf)) s = (.ok (), { s with headers := some h', last := blockKey U b }) ∧
      ∀ k, mget h' k = if k = blockKey U b then some ((mget h k).getD [] ++ [v]) else mget h k) := by
  obtain ⟨v, hv⟩ := hb.colon
  have e0 : b.lines.map (trim crlf) = (b.name ++ 0x3a :: v) :: b.more.map bare := by
    simp only [Block.lines, List.map_cons]
    rw [trim_bare (hb.fits b.head (by simp [Block.lines])).noLf, hv]
    congr 1
    apply List.map_congr_left
    intro l hl
    exact trim_bare (hb.fits l (by simp [Block.lines, hl])).noLf
  have hi := hb.field
  rw [hv] at hi
  obtain ⟨x, hx⟩ := runLines_more U (b.more.map bare) (by
    intro l hl
    obtain ⟨m, hm, rfl⟩ := List.mem_map.1 hl
    exact hb.rest m hm)
  refine ⟨trim (· == 0x20) v ++ x, fun s => ?_⟩
  rw [e0]
  constructor
  · intro hs
    rw [runLines]
    simp only [parseLine, Bool.false_eq_true, if_false, parseHeader_head U s _ _ hb.first hi, hs]
  · intro h hs
    rw [runLines]
    simp only [parseLine, Bool.false_eq_true, if_false, parseHeader_head U s _ _ hb.first hi, hs]
    obtain ⟨h', a1, a2⟩ := hx { s with
        headers := some (mset h (blockKey U b) (Sips.vals h (blockKey U b) ++ [trim (· == 0x20) v])), last := blockKey U b }
      _ (Sips.vals h (blockKey U b)) (trim (· == 0x20) v) rfl (by rw [mget_mset]; simp)
    refine ⟨h', a1, fun k => ?_⟩
    rw [a2, mget_mset]
    simp only
    split
    · rename_i e; subst e; rfl
    · rfl

theorem runLines_append (U : Unicode) : ∀ (as bs : List Bytes) (s : Sip),
    runLines U false (as ++ bs) s = match runLines U false as s with
      | (.ok _, s) => runLines U false bs s
      | (.err e, s) => (.err e, s)
      | (.panic, s) => (.panic, s)
      | (.diverge, s) => (.diverge, s)
  | [], bs, s => rfl
  | a :: as, bs, s => by
    rw [List.cons_append, runLines, runLines]
    rcases parseLine U false a s with ⟨_ | e | _ | _, s1⟩
    · exact runLines_append U as bs s1
    all_goals rfl

/-- Two runs with the same outcome that lead to messages that say the same. -/
def Agree (p q : Res Unit × Sip) : Prop := p.1 = q.1 ∧ Alike p.2 q.2

theorem agree_refl (p : Res Unit × Sip) : Agree p p := ⟨rfl, alike_refl _⟩

theorem agree_trans {p q r : Res Unit × Sip} (h1 : Agree p q) (h2 : Agree q r) : Agree p r :=
  ⟨h1.1.trans h2.1, h1.2.rest.trans h2.2.rest, h1.2.some.trans h2.2.some, fun k => (h1.2.vals k).trans (h2.2.vals k)⟩

/-- Fields read in states that say the same. -/
theorem blocks_alike (U : Unicode) (size : Nat) : ∀ (bs : List Block), (∀ b ∈ bs, b.Ok size) → ∀ s t, Alike s t →
    Agree (runLines U false ((blockLines bs).map (trim crlf)) s) (runLines U false ((blockLines bs).map (trim crlf)) t)
  | [], _, s, t, h => ⟨rfl, h⟩
  | b :: bs, hb, s, t, h => by
    obtain ⟨v, hv⟩ := runLines_block U size b (hb b (by simp))
    have e : (blockLines (b :: bs)).map (trim crlf) = b.lines.map (trim crlf) ++ (blockLines bs).map (trim crlf) := by simp [blockLines]
    rw [e, runLines_append, runLines_append]
    rcases hs : s.headers with _ | hd
    · have ht : t.headers = none := by have := h.some; rw [hs] at this; simpa using this.symm
      rw [(hv s).1 hs, (hv t).1 ht]
      exact ⟨rfl, h⟩
    · obtain ⟨td, ht⟩ : ∃ td, t.headers = some td := by
        have := h.some; rw [hs] at this
        exact Option.isSome_iff_exists.1 this.symm
      obtain ⟨h1, a1, a2⟩ := (hv s).2 hd hs
      obtain ⟨h2, b1, b2⟩ := (hv t).2 td ht
      rw [a1, b1]
      refine blocks_alike U size bs (fun c hc => hb c (by simp [hc])) _ _ ⟨?_, rfl, fun k => ?_⟩
      · exact h.rest
      · have hk := h.vals k
        simp only [Sip.hdr, hs, ht, Option.getD_some] at hk ⊢
        rw [a2, b2, hk]

/-- Two fields of different names in the other order. -/
theorem swap_alike (U : Unicode) (size : Nat) (b c : Block) (hb : b.Ok size) (hc : c.Ok size) (hd : Differ b c) (s : Sip) :
    Agree (runLines U false ((blockLines [b, c]).map (trim crlf)) s) (runLines U false ((blockLines [c, b]).map (trim crlf)) s) := by
  obtain ⟨v, hv⟩ := runLines_block U size b hb
  obtain ⟨w, hw⟩ := runLines_block U size c hc
  have hk : ∀ d : Block, Ascii d.name → blockKey U d = key d.name := by
    intro d ha
    refine toLower_ascii U fun x hx => ha x ?_
    unfold trim at hx
    rw [List.mem_reverse] at hx
    have := (List.dropWhile_sublist _).subset hx
    rw [List.mem_reverse] at this
    exact (List.dropWhile_sublist _).subset this
  have hne : blockKey U b ≠ blockKey U c := by rw [hk b hd.left, hk c hd.right]; exact hd.names
  have e : ∀ x y : Block, (blockLines [x, y]).map (trim crlf) = x.lines.map (trim crlf) ++ y.lines.map (trim crlf) := by
    intro x y; simp [blockLines]
  rw [e, e, runLines_append, runLines_append]
  rcases hs : s.headers with _ | h
  · rw [(hv s).1 hs, (hw s).1 hs]
    exact agree_refl _
  · obtain ⟨h1, a1, a2⟩ := (hv s).2 h hs
    obtain ⟨h2, b1, b2⟩ := (hw s).2 h hs
    rw [a1, b1]
    obtain ⟨h3, c1, c2⟩ := (hw { s with headers := some h1, last := blockKey U b }).2 h1 rfl
    obtain ⟨h4, d1, d2⟩ := (hv { s with headers := some h2, last := blockKey U c }).2 h2 rfl
    simp only
    rw [c1, d1]
    refine ⟨rfl, rfl, rfl, fun k => ?_⟩
    simp only [Sip.hdr, Option.getD_some]
    rw [c2, d2, a2, b2]
    by_cases k1 : k = blockKey U b
    · have k2 : k ≠ blockKey U c := by rw [k1]; exact hne
      simp [k1, hne]
    · by_cases k2 : k = blockKey U c
      · simp [k2, Ne.symm hne]
      · simp [k1, k2]

theorem reordered_mem {as bs : List Block} (h : Reordered as bs) : ∀ b, b ∈ as ↔ b ∈ bs := by
  induction h with
  | refl => intro b; rfl
  | swap as cs hd => intro b; simp only [List.mem_append, List.mem_cons]; constructor <;> (rintro (h | h | h | h) <;> simp [h])
  | trans _ _ i1 i2 => intro b; exact (i1 b).trans (i2 b)

theorem reordered_alike (U : Unicode) (size : Nat) {as bs : List Block} (h : Reordered as bs) (hok : ∀ b ∈ as, b.Ok size) (s : Sip) :
    Agree (runLines U false ((blockLines as).map (trim crlf)) s) (runLines U false ((blockLines bs).map (trim crlf)) s) := by
  induction h generalizing s with
  | refl => exact agree_refl _
  | @swap as cs b c hd =>
    have e : ∀ x y : Block, (blockLines (as ++ x :: y :: cs)).map (trim crlf) =
        (blockLines as).map (trim crlf) ++ ((blockLines [x, y]).map (trim crlf) ++ (blockLines cs).map (trim crlf)) := by
      intro x y; simp [blockLines]
    rw [e, e, runLines_append, runLines_append]
    rcases runLines U false ((blockLines as).map (trim crlf)) s with ⟨_ | e | _ | _, s1⟩
    · simp only
      rw [runLines_append, runLines_append]
      have hsw := swap_alike U size b c (hok b (by simp)) (hok c (by simp)) hd s1
      revert hsw
      rcases runLines U false ((blockLines [b, c]).map (trim crlf)) s1 with ⟨q1, t1⟩
      rcases runLines U false ((blockLines [c, b]).map (trim crlf)) s1 with ⟨q2, t2⟩
      rintro ⟨h1, h2⟩
      have h1 : q1 = q2 := h1
      have h2 : Alike t1 t2 := h2
      subst h1
      cases q1 with
      | ok _ => exact blocks_alike U size cs (fun x hx => hok x (by simp [hx])) _ _ h2
      | err e => exact ⟨rfl, h2⟩
      | panic => exact ⟨rfl, h2⟩
      | diverge => exact ⟨rfl, h2⟩
    all_goals exact agree_refl _
  | trans h1 h2 i1 i2 =>
    exact agree_trans (i1 hok s) (i2 (fun b hb => hok b ((reordered_mem h1 b).2 hb)) s)

theorem getFirst_alike (U : Unicode) {a b : Hdr} (h : ∀ k, mget a k = mget b k) (n : Bytes) : getFirstHeader U a n = getFirstHeader U b n := by
  unfold getFirstHeader Sips.vals
  simp only [h]

theorem fillHeader_alike (U : Unicode) {s t : Sip} (h : Alike s t) : Agree (fillHeader U s) (fillHeader U t) := by
  have g := getFirst_alike U h.vals
  have e1 : getSIPContact U s.hdr = getSIPContact U t.hdr := by unfold getSIPContact; rw [g]
  have e2 : getSIPFrom U s.hdr = getSIPFrom U t.hdr := by unfold getSIPFrom; rw [g]
  have e3 : getSIPTo U s.hdr = getSIPTo U t.hdr := by unfold getSIPTo; rw [g]
  have e4 : getSIPVia U s.hdr = getSIPVia U t.hdr := by unfold getSIPVia; rw [g]
  have e5 : getSIPCseq U s.hdr = getSIPCseq U t.hdr := by unfold getSIPCseq; rw [g]
  have hr := h.rest
  simp only [Sip.mk.injEq] at hr
  simp only [Agree, fillHeader, GoM.bind_apply, GoM.get_apply, GoM.modify_apply, GoM.lift_apply, e1, e2, e3, e4]
  rcases getSIPContact U t.hdr with c | e | _ | _
  · simp only
    rcases getSIPFrom U t.hdr with f | e | _ | _
    · simp only
      rcases getSIPTo U t.hdr with f | e | _ | _
      · simp only
        rcases getSIPVia U t.hdr with v | e | _ | _
        all_goals (refine ⟨rfl, ?_, h.some, h.vals⟩; simp only [Sip.mk.injEq]; simp_all [Sip.hdr])
      all_goals (refine ⟨rfl, ?_, h.some, h.vals⟩; simp only [Sip.mk.injEq]; simp_all [Sip.hdr])
    all_goals (refine ⟨rfl, ?_, h.some, h.vals⟩; simp only [Sip.mk.injEq]; simp_all [Sip.hdr])
  all_goals exact ⟨rfl, h⟩

/-- The rest of `Parse` after sections that say the same. -/
theorem finish_alike (U : Unicode) {s t : Sip} (h : Alike s t) (p1 p2 blank : Bytes) (r1 r2 : Rd) (k1 : r1.Ok) (k2 : r2.Ok)
    (ha : r1.all = r2.all) (hf : r1.final = r2.final) :
    (finish U (p1 ++ blank) p1.length s r1).1 = (finish U (p2 ++ blank) p2.length t r2).1 ∧
    Alike (finish U (p1 ++ blank) p1.length s r1).2.1 (finish U (p2 ++ blank) p2.length t r2).2.1 := by
  have hA := fillHeader_alike U h
  rcases hs : fillHeader U s with ⟨q1, s1⟩
  rcases ht : fillHeader U t with ⟨q2, t1⟩
  rw [hs, ht] at hA
  obtain ⟨h1, h2⟩ := hA
  have h1 : q1 = q2 := h1
  have h2 : Alike s1 t1 := h2
  subst h1
  have hcl : getContentLength U s1.hdr = getContentLength U t1.hdr := by
    unfold getContentLength; rw [getFirst_alike U h2.vals]
  cases q1 with
  | ok u =>
    rcases finish_cases U p1 blank s s1 r1 k1 hs with ⟨n, k, r', a1, a2, a3, -⟩ | ⟨n, r', a1, a2, a3, a4⟩ | ⟨e, a1, a2⟩ <;>
    rcases finish_cases U p2 blank t t1 r2 k2 ht with ⟨n', k', r'', b1, b2, b3, -⟩ | ⟨n', r'', b1, b2, b3, b4⟩ | ⟨e', b1, b2⟩ <;>
    rw [hcl, b1] at a1 <;> simp only [Res.ok.injEq, Res.err.injEq, reduceCtorEq] at a1
    · rw [a3, b3]
      exact ⟨rfl, h2.rest, h2.some, h2.vals⟩
    · rw [ha, hf] at a2; subst a1; exact absurd a2 (by simp [b2, b3])
    · rw [ha] at a2; rw [hf] at a3; subst a1; exact absurd b2 (by simp [a2, a3])
    · rw [a4, b4, hf]; exact ⟨rfl, h2⟩
    · rw [a2, b2, a1]; exact ⟨rfl, h2⟩
  | err e => rw [finish, finish, hs, ht]; exact ⟨rfl, h2⟩
  | panic => rw [finish, finish, hs, ht]; exact ⟨rfl, h2⟩
  | diverge => rw [finish, finish, hs, ht]; exact ⟨rfl, h2⟩

theorem headLine_ok {size : Nat} {l : Bytes} (h : HeadLine size l) : (10 : UInt8) ∉ l ∧ trim crlf l ≠ [] ∧ l.length < size := by
  refine ⟨h.noLf, fun hn => ?_, h.short⟩
  obtain ⟨b, hb, hne⟩ := h.notBlank
  have := (trim_eq_nil_iff crlf l).1 hn b hb
  simp only [crlf, Bool.or_eq_true, beq_iff_eq] at this
  rcases this with h1 | h1
  · exact hne h1
  · exact h.noLf (h1 ▸ hb)

/-- `Parse` is the lines, then the rest. -/
theorem parse_head (U : Unicode) (s : Sip) (r : Rd) (hr : r.Ok) (ls : List Bytes) (cr rest : Bytes)
    (hall : r.all = joinLines ls ++ (cr ++ 10 :: rest)) (hcr : ∀ b ∈ cr, b = 13) (hcap : cr.length < r.cap)
    (hls : ∀ l ∈ ls, (10 : UInt8) ∉ l ∧ trim crlf l ≠ [] ∧ l.length < r.cap) :
    ∃ r1, r1.Ok ∧ r1.all = rest ∧ r1.final = r.final ∧
      ((runLines U true (ls.map (trim crlf)) s).1 = .ok () → parse U s r =
        finish U (joinLines ls ++ (cr ++ [10])) (joinLines ls).length (runLines U true (ls.map (trim crlf)) s).2 r1) ∧
      ((runLines U true (ls.map (trim crlf)) s).1 ≠ .ok () → (parse U s r).1 = (runLines U true (ls.map (trim crlf)) s).1 ∧
        (parse U s r).2.1 = (runLines U true (ls.map (trim crlf)) s).2) := by
  have hj := joinLines_length ls
  have hlen := congrArg List.length hall
  rw [List.length_append] at hlen
  rcases hrun : runLines U true (ls.map (trim crlf)) s with ⟨q, s1⟩
  by_cases hq : q = .ok ()
  · subst hq
    obtain ⟨r1, g1, g2, g3, g4, g5⟩ := Verif.Sips.parse_blank U s s1 s r hr ls cr rest hall hcr hcap hls hrun
    exact ⟨r1, g1, g2, g4, fun _ => g5, fun h => absurd rfl h⟩
  · obtain ⟨r1, g1, g2, g3, g4, g5, g6, g7⟩ :=
      lineLoop_lines U (cr ++ 10 :: rest) ls (r.all.length + 2 - ls.length) true [] 0 s r hr hall hls
    refine ⟨⟨[], [rest], 1, r.final⟩, ⟨by simp, by simp⟩, by simp [Rd.all], rfl, fun h => absurd h hq, fun _ => ?_⟩
    rw [parse, show r.all.length + 2 = ls.length + (r.all.length + 2 - ls.length) by omega]
    cases q with
    | ok u => exact absurd rfl hq
    | err e => rw [g5 _ _ hrun]; exact ⟨rfl, rfl⟩
    | panic => rw [g6 _ hrun]; exact ⟨rfl, rfl⟩
    | diverge => rw [g7 _ hrun]; exact ⟨rfl, rfl⟩

/-- C165: two messages with the same first line and the same header fields in another order, in which the fields of the same name have kept
their order, have the same outcome in `Parse`, whatever it is, and say the same: every name has the same values, and all else that was
derived from the header is the same.  (The bytes of the header section are others of course; for the payload see below.) -/
theorem C165_order (U : Unicode) (s : Sip) (size : Nat) (fin : Err) (chunks chunks' : List Bytes) (first : Bytes)
    (h0 : HeadLine size first) (fs gs : List Block) (hok : ∀ b ∈ fs, b.Ok size) (hre : Reordered fs gs) (cr body : Bytes)
    (hcr : ∀ b ∈ cr, b = 13) (hcap : cr.length < size)
    (hall : chunks.flatten = lines (first :: blockLines fs) ++ (cr ++ 10 :: body))
    (hall' : chunks'.flatten = lines (first :: blockLines gs) ++ (cr ++ 10 :: body)) :
    (parse U s ⟨[], chunks, size, fin⟩).1 = (parse U s ⟨[], chunks', size, fin⟩).1 ∧
    Alike (parse U s ⟨[], chunks, size, fin⟩).2.1 (parse U s ⟨[], chunks', size, fin⟩).2.1 := by
  have hok' : ∀ b ∈ gs, b.Ok size := fun b hb => hok b ((reordered_mem hre b).2 hb)
  have hls : ∀ bs : List Block, (∀ b ∈ bs, b.Ok size) → ∀ l ∈ first :: blockLines bs, (10 : UInt8) ∉ l ∧ trim crlf l ≠ [] ∧ l.length < size := by
    intro bs hbs l hl
    rcases List.mem_cons.1 hl with rfl | hl
    · exact headLine_ok h0
    · simp only [blockLines, List.mem_flatten, List.mem_map] at hl
      obtain ⟨_, ⟨b, hb, rfl⟩, hl⟩ := hl
      exact headLine_ok ((hbs b hb).fits l hl)
  have hr : ∀ cs, (⟨[], cs, size, fin⟩ : Rd).Ok := fun _ => ⟨by show 0 < size; omega, by simp⟩
  obtain ⟨r1, a1, a2, a3, a4, a5⟩ := parse_head U s ⟨[], chunks, size, fin⟩ (hr _) _ cr body
    (by rw [Rd.all, List.nil_append]; exact hall) hcr hcap (hls fs hok)
  obtain ⟨r2, b1, b2, b3, b4, b5⟩ := parse_head U s ⟨[], chunks', size, fin⟩ (hr _) _ cr body
    (by rw [Rd.all, List.nil_append]; exact hall') hcr hcap (hls gs hok')
  have hag : Agree (runLines U true ((first :: blockLines fs).map (trim crlf)) s) (runLines U true ((first :: blockLines gs).map (trim crlf)) s) := by
    rw [List.map_cons, List.map_cons, runLines, runLines]
    rcases parseLine U true (trim crlf first) s with ⟨_ | e | _ | _, s1⟩
    · exact reordered_alike U size hre hok s1
    all_goals exact agree_refl _
  by_cases hq : (runLines U true ((first :: blockLines fs).map (trim crlf)) s).1 = .ok ()
  · rw [a4 hq, b4 (hag.1 ▸ hq)]
    exact finish_alike U hag.2 _ _ _ r1 r2 a1 b1 (by rw [a2, b2]) (by rw [a3, b3])
  · obtain ⟨c1, c2⟩ := a5 hq
    obtain ⟨d1, d2⟩ := b5 (fun h => hq (hag.1.trans h))
    rw [c1, c2, d1, d2]
    exact hag

/-- C165: the payloads are the same too, if no bytes follow that the declared length does not count (or it counts no more than the blank
line).  What happens with further bytes is the subject of C81. -/
theorem C165_payload (U : Unicode) (s : Sip) (size : Nat) (fin : Err) (chunks chunks' : List Bytes) (first : Bytes)
    (h0 : HeadLine size first) (fs gs : List Block) (hok : ∀ b ∈ fs, b.Ok size) (hre : Reordered fs gs) (cr body : Bytes)
    (hcr : ∀ b ∈ cr, b = 13) (hcap : cr.length < size)
    (hall : chunks.flatten = lines (first :: blockLines fs) ++ (cr ++ 10 :: body))
    (hall' : chunks'.flatten = lines (first :: blockLines gs) ++ (cr ++ 10 :: body)) (m : Sip) (r : Rd)
    (hp : parse U s ⟨[], chunks, size, fin⟩ = (.ok (), m, r)) (n : Int) (hn : getContentLength U m.hdr = .ok n)
    (hlen : n ≤ cr.length + 1 ∨ (body.length : Int) ≤ n - (cr.length + 1)) :
    ∃ m' r', parse U s ⟨[], chunks', size, fin⟩ = (.ok (), m', r') ∧ m'.payload = m.payload := by
  have hmain := C165_order U s size fin chunks chunks' first h0 fs gs hok hre cr body hcr hcap hall hall'
  rcases hp' : parse U s ⟨[], chunks', size, fin⟩ with ⟨q, m', r'⟩
  rw [hp, hp'] at hmain
  obtain ⟨h1, h2⟩ := hmain
  have h1 : .ok () = q := h1
  have h2 : Alike m m' := h2
  subst h1
  refine ⟨m', r', rfl, ?_⟩
  have hsize : 0 < size := by omega
  have hls : ∀ bs : List Block, (∀ b ∈ bs, b.Ok size) → ∀ l ∈ first :: blockLines bs, HeadLine size l := by
    intro bs hbs l hl
    rcases List.mem_cons.1 hl with rfl | hl
    · exact h0
    · simp only [blockLines, List.mem_flatten, List.mem_map] at hl
      obtain ⟨_, ⟨b, hb, rfl⟩, hl⟩ := hl
      exact (hbs b hb).fits l hl
  obtain ⟨n1, k1, a1, -, a2, -, a3, a4, -, a5, a6⟩ := C81_payload_partial U s m r size hsize fin chunks _ cr body hall (hls fs hok) hcr hcap hp
  obtain ⟨n2, k2, b1, -, b2, -, b3, b4, -, b5, b6⟩ := C81_payload_partial U s m' r' size hsize fin chunks' _ cr body hall'
    (hls gs fun b hb => hok b ((reordered_mem hre b).2 hb)) hcr hcap hp'
  have hcl : getContentLength U m.hdr = getContentLength U m'.hdr := by unfold getContentLength; rw [getFirst_alike U h2.vals]
  rw [hn] at a1; cases a1
  rw [← hcl, hn] at b1; cases b1
  have : k1 = k2 := by
    rcases hlen with h | h
    · rw [a4 h, b4 h]
    · by_cases hc : n - (cr.length + 1) ≤ body.length
      · have := a5 hc; have := b5 hc; omega
      · rw [a6 hc, b6 hc]
  rw [a2, b2, this]

/-- A folded subject and two Via fields: the subject moves behind both, and the order of these two stays. -/
def someBlocks : Block × Block × Block :=
  (⟨text "Subject ", text "Subject : a\r", [text " b\r", text "nothing\r"]⟩, ⟨text "VIA", text "VIA: x\r", []⟩, ⟨text "via", text "via: y\r", []⟩)

theorem someBlocks_ok : (∀ b ∈ [someBlocks.1, someBlocks.2.1, someBlocks.2.2], b.Ok 4096) ∧
    Reordered [someBlocks.1, someBlocks.2.1, someBlocks.2.2] [someBlocks.2.1, someBlocks.2.2, someBlocks.1] := by
  constructor
  · intro b hb
    simp only [List.mem_cons, List.not_mem_nil, or_false] at hb
    rcases hb with rfl | rfl | rfl
    · refine ⟨?_, ⟨text " a", by decide +kernel⟩, by decide +kernel, by unfold Indented; decide +kernel, by unfold Indented; decide +kernel⟩
      have : ∀ l ∈ someBlocks.1.lines, (10 : UInt8) ∉ l ∧ (∃ b ∈ l, b ≠ 13) ∧ l.length < 4096 := by decide +kernel
      exact fun l hl => ⟨(this l hl).1, (this l hl).2.1, (this l hl).2.2⟩
    · refine ⟨?_, ⟨text " x", by decide +kernel⟩, by decide +kernel, by unfold Indented; decide +kernel, by unfold Indented; decide +kernel⟩
      have : ∀ l ∈ someBlocks.2.1.lines, (10 : UInt8) ∉ l ∧ (∃ b ∈ l, b ≠ 13) ∧ l.length < 4096 := by decide +kernel
      exact fun l hl => ⟨(this l hl).1, (this l hl).2.1, (this l hl).2.2⟩
    · refine ⟨?_, ⟨text " y", by decide +kernel⟩, by decide +kernel, by unfold Indented; decide +kernel, by unfold Indented; decide +kernel⟩
      have : ∀ l ∈ someBlocks.2.2.lines, (10 : UInt8) ∉ l ∧ (∃ b ∈ l, b ≠ 13) ∧ l.length < 4096 := by decide +kernel
      exact fun l hl => ⟨(this l hl).1, (this l hl).2.1, (this l hl).2.2⟩
  · have d1 : Differ someBlocks.1 someBlocks.2.1 := ⟨by unfold Ascii; decide +kernel, by unfold Ascii; decide +kernel, by decide +kernel⟩
    have d2 : Differ someBlocks.1 someBlocks.2.2 := ⟨by unfold Ascii; decide +kernel, by unfold Ascii; decide +kernel, by decide +kernel⟩
    exact .trans (.swap [] [_] d1) (.swap [_] [] d2)

example (U : Unicode) :
    (parseBytes U Sip.new (lines (text "BYE sip:a@b SIP/2.0\r" :: blockLines [someBlocks.1, someBlocks.2.1, someBlocks.2.2]) ++ ([13] ++ 10 :: []))).1 =
    (parseBytes U Sip.new (lines (text "BYE sip:a@b SIP/2.0\r" :: blockLines [someBlocks.2.1, someBlocks.2.2, someBlocks.1]) ++ ([13] ++ 10 :: []))).1 := by
  have h0 : (10 : UInt8) ∉ text "BYE sip:a@b SIP/2.0\r" ∧ (∃ b ∈ text "BYE sip:a@b SIP/2.0\r", b ≠ 13) ∧
    (text "BYE sip:a@b SIP/2.0\r").length < 4096 := by decide +kernel
  exact (C165_order U Sip.new 4096 .eof [_] [_] _ ⟨h0.1, h0.2.1, h0.2.2⟩ _ _ someBlocks_ok.1 someBlocks_ok.2 [13] [] (by simp) (by simp)
    (by rw [List.flatten_singleton]) (by rw [List.flatten_singleton])).1

end Verif.Props
