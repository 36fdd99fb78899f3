import Verif.Lemmas.SipsUser
import Verif.Lemmas.Utf8
/-! # Lemmas: when argument parsing panics -/
namespace Verif.Sips
open Verif.Str Verif.Spec.Sips

/-! ## ValuesPresent -/

theorem startsValue_append {r : Bytes} (h : StartsValue r) (t : Bytes) : StartsValue (r ++ t) := by
  rcases h with ⟨c, u, rfl, hc⟩ | ⟨c, u, rfl, hc⟩
  · exact Or.inl ⟨c, u ++ t, rfl, hc⟩
  · exact Or.inr ⟨c, u ++ t, rfl, hc⟩

theorem vp_nil : ValuesPresent [] := by intro x r h; simp at h

theorem vp_of_not_mem {s : Bytes} (h : (0x3d : UInt8) ∉ s) : ValuesPresent s := by
  intro x r e; subst e; simp at h

theorem vp_suffix {x y : Bytes} (h : ValuesPresent (x ++ y)) : ValuesPresent y := by
  intro a r e; subst e
  exact h (x ++ a) r (by simp)

/-- `y` does not continue a value. -/
def Ends (y : Bytes) : Prop := ∀ c, y.head? = some c → ¬ Plain c ∧ c ≠ 0x22

theorem vp_prefix {x y : Bytes} (h : ValuesPresent (x ++ y)) (hy : Ends y) : ValuesPresent x := by
  intro a r e; subst e
  have hs := h a (r ++ y) (by simp)
  cases r with
  | nil =>
    exfalso
    rcases hs with ⟨c, t, hc, hp⟩ | ⟨c, t, hc, hp⟩
    · exact (hy c (by rw [List.nil_append] at hc; rw [hc]; rfl)).1 hp
    · exact (hy 0x22 (by rw [List.nil_append] at hc; rw [hc]; rfl)).2 rfl
  | cons b r =>
    rcases hs with ⟨c, t, hc, hp⟩ | ⟨c, t, hc, hp⟩
    · simp only [List.cons_append, List.cons.injEq] at hc
      obtain ⟨rfl, -⟩ := hc
      exact Or.inl ⟨b, r, rfl, hp⟩
    · simp only [List.cons_append, List.cons.injEq] at hc
      obtain ⟨rfl, hc⟩ := hc
      cases r with
      | nil => exact absurd hp (hy c (by rw [List.nil_append] at hc; rw [hc]; rfl)).1
      | cons d r =>
        simp only [List.cons_append, List.cons.injEq] at hc
        obtain ⟨rfl, -⟩ := hc
        exact Or.inr ⟨d, r, rfl, hp⟩

theorem vp_append {x y : Bytes} (hx : ValuesPresent x) (hy : ValuesPresent y) : ValuesPresent (x ++ y) := by
  intro a r e
  rcases List.append_eq_append_iff.1 e with ⟨a', rfl, h2⟩ | ⟨c', h1, h2⟩
  · exact hy a' r h2
  · cases c' with
    | nil =>
      simp only [List.nil_append] at h2
      exact hy [] r h2.symm
    | cons d c' =>
      simp only [List.cons_append, List.cons.injEq] at h2
      obtain ⟨rfl, rfl⟩ := h2
      exact startsValue_append (hx a c' h1) y

/-! ## White space trimming -/

theorem space_not_plain {c : UInt8} (h : asciiSpace c = true) : ¬ Plain c ∧ c ≠ 0x22 := by
  have key : ∀ n : Fin 256, asciiSpace (UInt8.ofNat n.val) = true → n.val ≤ 0x20 := by decide +kernel
  have hk := key ⟨c.toNat, c.toNat_lt⟩
  simp only [UInt8.ofNat_toNat] at hk
  have := hk h
  constructor
  · intro hp
    have h1 : 0x21 ≤ c.toNat := hp.1
    omega
  · rintro rfl
    exact absurd this (by decide)

theorem ends_of_all {y : Bytes} (P : UInt8 → Prop) (hP : ∀ c, P c → ¬ Plain c ∧ c ≠ 0x22) (h : ∀ c ∈ y, P c) : Ends y :=
  fun c hc => hP c (h c (List.mem_of_head? hc))

theorem high_not_plain {c : UInt8} (h : 0x80 ≤ c) : ¬ Plain c ∧ c ≠ 0x22 := by
  rw [UInt8.le_iff_toNat_le] at h
  simp at h
  constructor
  · intro hp
    have h1 : c.toNat ≤ 0x7e := hp.2.1
    omega
  · rintro rfl
    exact absurd h (by decide)

theorem vp_trimSpace {s : Bytes} (h : ValuesPresent s) : ValuesPresent (trimSpace s) := by
  simp only [trimSpace]
  obtain ⟨l, e⟩ := trimLeftAux_suffix s.length s
  obtain ⟨r, e', hr⟩ := trimRightAux_prefix (trimLeftAux s.length s).length (trimLeftAux s.length s)
  rw [e] at h
  have h := vp_suffix h
  rw [e'] at h
  refine vp_prefix h fun c hc => ?_
  rcases hr c hc with hc | hc
  · exact space_not_plain hc
  · exact high_not_plain hc

/-! ## ParseList -/

/-- What is known about a pending element in the middle of `ParseList`, with `s` still to come. -/
structure LInv (st : ListSt) (s : Bytes) : Prop where
  list : ∀ p ∈ st.list, ValuesPresent p
  pend : ∀ x r, st.b = x ++ 0x3d :: r → StartsValue r ∨ (r = [] ∧ StartsValue s) ∨ (r = [0x22] ∧ ∃ c t, s = c :: t ∧ Plain c)

theorem plain_quote : ¬ Plain 0x22 := fun h => h.2.2.1 rfl

theorem linv_append {st : ListSt} {c : UInt8} {t : Bytes} (h : LInv st (c :: t))
    (hv : ValuesPresent (c :: t)) (st' : ListSt) (hb : st'.b = st.b ++ [c]) (hl : st'.list = st.list) : LInv st' t := by
  refine ⟨by rw [hl]; exact h.list, ?_⟩
  · intro x r e
    rw [hb] at e
    rcases List.eq_nil_or_concat r with rfl | ⟨r', d, rfl⟩
    · have : st.b ++ [c] = x ++ [0x3d] := e
      obtain ⟨-, hc'⟩ := List.append_inj' this rfl
      simp only [List.cons.injEq, and_true] at hc'
      subst hc'
      exact Or.inr (Or.inl ⟨rfl, hv [] t rfl⟩)
    · simp only [List.concat_eq_append] at e ⊢
      have e' : st.b ++ [c] = (x ++ 0x3d :: r') ++ [d] := by rw [e]; simp
      obtain ⟨e1, hc'⟩ := List.append_inj' e' rfl
      simp only [List.cons.injEq, and_true] at hc'
      subst hc'
      rcases h.pend x r' e1 with hs | ⟨rfl, hs⟩ | ⟨rfl, d, u, hd, hp⟩
      · exact Or.inl (startsValue_append hs _)
      · rcases hs with ⟨d, u, hd, hp⟩ | ⟨d, u, hd, hp⟩
        · simp only [List.cons.injEq] at hd
          obtain ⟨rfl, rfl⟩ := hd
          exact Or.inl (Or.inl ⟨c, [], rfl, hp⟩)
        · simp only [List.cons.injEq] at hd
          obtain ⟨rfl, rfl⟩ := hd
          exact Or.inr (Or.inr ⟨rfl, d, u, rfl, hp⟩)
      · simp only [List.cons.injEq] at hd
        obtain ⟨rfl, rfl⟩ := hd
        exact Or.inl (Or.inr ⟨c, [], rfl, hp⟩)

theorem linv_full {st : ListSt} {s : Bytes} (h : LInv st s) (hs : Ends s) : ValuesPresent st.b := by
  intro x r e
  rcases h.pend x r e with hv | ⟨rfl, hv⟩ | ⟨rfl, c, t, hc, hp⟩
  · exact hv
  · exfalso
    rcases hv with ⟨c, t, hc, hp⟩ | ⟨c, t, hc, hp⟩
    · exact (hs c (by rw [hc]; rfl)).1 hp
    · exact (hs 0x22 (by rw [hc]; rfl)).2 rfl
  · exact absurd hp (hs c (by rw [hc]; rfl)).1

theorem linv_step {st : ListSt} {c : UInt8} {t : Bytes} (hc : c < 0x80) (h : LInv st (c :: t))
    (hv : ValuesPresent (c :: t)) : LInv (listStep st c.toNat) t := by
  have ap := linv_append h hv
  simp only [listStep, encodeRune_ascii hc]
  split
  · exact ap _ rfl rfl
  · split
    · split
      · next hbs =>
        have hc5 : c = 0x5c := UInt8.toNat_inj.1 hbs
        have hends : Ends (c :: t) := by
          intro d hd
          simp only [List.head?_cons, Option.some.injEq] at hd
          subst hd; subst hc5
          exact ⟨fun hp => hp.2.2.2.2.2 rfl, by decide⟩
        have hvb := linv_full h hends
        exact ⟨h.list, fun x r e => Or.inl (hvb x r e)⟩
      · exact ap _ rfl rfl
    · split
      · next hsep =>
        have hends : Ends (c :: t) := by
          intro d hd
          simp only [List.head?_cons, Option.some.injEq] at hd
          subst hd
          rcases hsep with e | e | e
          · have e : c = 0x2c := UInt8.toNat_inj.1 e
            subst e; exact ⟨fun hp => hp.2.2.2.1 rfl, by decide⟩
          · have e : c = 0x3b := UInt8.toNat_inj.1 e
            subst e; exact ⟨fun hp => hp.2.2.2.2.1 rfl, by decide⟩
          · have e : c = 0x0a := UInt8.toNat_inj.1 e
            subst e; exact ⟨fun hp => absurd hp.1 (by decide), by decide⟩
        have hvb := linv_full h hends
        refine ⟨?_, by simp⟩
        intro p hp
        rw [List.mem_append, List.mem_singleton] at hp
        rcases hp with hp | rfl
        · exact h.list p hp
        · exact vp_trimSpace hvb
      · split
        · exact ap _ rfl rfl
        · exact ap _ rfl rfl

/-- Bytes that are not ASCII go to the buffer. -/
theorem linv_high {st : ListSt} {c : UInt8} {t : Bytes} (hc : ¬ c < 0x80) (h : LInv st (c :: t)) (r : Nat) (hr : 0x80 ≤ r) (u : Bytes) :
    LInv (listStep st r) u := by
  obtain ⟨e1, e2⟩ := encodeRune_high r hr
  have hstep : (listStep st r).b = st.b ++ encodeRune r ∧ (listStep st r).list = st.list := by
    simp only [listStep]
    have n1 : r ≠ 0x5c := by omega
    have n2 : ¬ (r = 0x2c ∨ r = 0x3b ∨ r = 0x0a) := by omega
    have n3 : r ≠ 0x22 := by omega
    simp only [n1, n2, n3, if_false]
    split
    · exact ⟨rfl, rfl⟩
    · split <;> exact ⟨rfl, rfl⟩
  have hc' := high_not_plain (UInt8.not_lt.1 hc)
  refine ⟨by rw [hstep.2]; exact h.list, fun x y e => .inl ?_⟩
  rw [hstep.1] at e
  have key : ∀ z, st.b = x ++ 0x3d :: z → StartsValue z := by
    intro z hz
    rcases h.pend x z hz with hs | ⟨-, hs⟩ | ⟨-, d, v, hd, hp⟩
    · exact hs
    · rcases hs with ⟨d, v, hd, hp⟩ | ⟨d, v, hd, hp⟩
      · exact absurd ((List.cons.inj hd).1 ▸ hp) hc'.1
      · exact absurd (List.cons.inj hd).1 hc'.2
    · exact absurd ((List.cons.inj hd).1 ▸ hp) hc'.1
  rcases List.append_eq_append_iff.1 e with ⟨a', h1, h2⟩ | ⟨c', h1, h2⟩
  · exact absurd (e2 0x3d (by rw [h2]; simp)) (by decide)
  · cases c' with
    | nil =>
      have : encodeRune r = 0x3d :: y := h2.symm
      exact absurd (e2 0x3d (by rw [this]; simp)) (by decide)
    | cons d c' =>
      simp only [List.cons_append, List.cons.injEq] at h2
      obtain ⟨rfl, rfl⟩ := h2
      exact startsValue_append (key c' h1) _

theorem linv_foldl : ∀ (n : Nat) (s : Bytes) (st : ListSt), s.length ≤ n → LInv st s → ValuesPresent s →
    LInv ((runes s).foldl listStep st) [] := by
  intro n
  induction n with
  | zero =>
    intro s st hn h _
    have : s = [] := List.length_eq_zero_iff.1 (by omega)
    subst this
    exact h
  | succ n ih =>
    intro s st hn h hv
    cases s with
    | nil => exact h
    | cons c t =>
      rw [runes_cons, List.foldl_cons]
      have hw := decodeRune_width c t
      by_cases hc : c < 0x80
      · rw [decodeRune_ascii hc]
        exact ih _ _ (by simpa using hn) (linv_step hc h hv) (vp_suffix (x := [c]) hv)
      · refine ih _ _ (by simp at hn ⊢; omega) (linv_high hc h _ (decodeRune_high hc t) _) ?_
        exact vp_suffix (x := (c :: t).take (decodeRune (c :: t)).2) (by rw [List.take_append_drop]; exact hv)

theorem parseList_vp {s : Bytes} (hv : ValuesPresent s) : ∀ p ∈ parseList s, ValuesPresent p := by
  have h := linv_foldl s.length s {} (Nat.le_refl _) ⟨by simp, by simp⟩ hv
  simp only [parseList]
  intro p hp
  split at hp
  · rw [List.mem_append, List.mem_singleton] at hp
    rcases hp with hp | rfl
    · exact h.list p hp
    · exact vp_trimSpace (linv_full h (by intro c hc; simp at hc))
  · exact h.list p hp

/-! ## ParseArgsPairs -/

/-- The value stored for the text `v` after `=`: without the quotes around it, if there are any. -/
def unquoted (v : Bytes) : Bytes :=
  if v.head? = some 0x22 ∧ v.getLast? = some 0x22 then (v.drop 1).dropLast else v

theorem parsePair_none (m : Args) (p : Bytes) (h : (0x3d : UInt8) ∉ p) : parsePair m p = .ok (mset m p []) := by
  simp [parsePair, index_not_mem h]

theorem parsePair_eq (m : Args) (k v : Bytes) (h : (0x3d : UInt8) ∉ k) :
    parsePair m (k ++ 0x3d :: v) = if v = [] ∨ v = [0x22] then .panic else .ok (mset m k (unquoted v)) := by
  have s1 : goSlice (k ++ 0x3d :: v) ((k.length : Int) + 1) (k ++ 0x3d :: v).length = .ok v := by
    have := goSlice_suffix (k ++ [(0x3d : UInt8)]) v (k.length + 1) (by simp)
    simpa using this
  have s2 : goSlice (k ++ 0x3d :: v) 0 (k.length : Int) = .ok k := goSlice_prefix k _ _ rfl
  simp only [parsePair, index_append h]
  rw [if_neg (by omega), s1, Res.bind_ok]
  cases v with
  | nil => simp [goIndex]
  | cons c v =>
    have g0 : goIndex (c :: v) 0 = .ok c := by simp [goIndex]
    obtain ⟨i, l, hil⟩ : ∃ i l, c :: v = i ++ [l] := ⟨_, _, (List.dropLast_concat_getLast (by simp)).symm⟩
    have hlen : ((c :: v).length : Int) - 1 = i.length := by rw [hil]; simp
    have gl : goIndex (c :: v) (((c :: v).length : Int) - 1) = .ok l := by
      rw [hlen, hil]
      simp [goIndex]
    rw [g0, Res.bind_ok, gl, Res.bind_ok, s2]
    have hlast : (c :: v).getLast? = some l := by rw [hil]; simp
    by_cases hq : c = 0x22 ∧ l = 0x22
    · rw [if_pos hq]
      cases v with
      | nil =>
        rw [if_pos (Or.inr (by rw [hq.1]))]
        rfl
      | cons d v =>
        rw [if_neg (by simp)]
        have : goSlice (c :: d :: v) 1 (((c :: d :: v).length : Int) - 1) = .ok ((d :: v).dropLast) := by
          have e1 : (((c :: d :: v).length : Int) - 1) = ((v.length + 1 : Nat) : Int) := by simp
          rw [e1, show (1 : Int) = ((1 : Nat) : Int) from rfl, goSlice_nat _ _ _ (by omega) (by simp)]
          simp [List.dropLast_eq_take]
        rw [this, Res.bind_ok, Res.bind_ok]
        rw [unquoted, if_pos ⟨by rw [hq.1]; rfl, by rw [hlast, hq.2]⟩]
        rfl
    · rw [if_neg hq, Res.bind_ok, Res.bind_ok, if_neg, unquoted, if_neg]
      · simp only [List.head?_cons, hlast, Option.some.injEq]; exact hq
      · rintro (h | h)
        · simp at h
        · simp only [List.cons.injEq] at h
          obtain ⟨rfl, rfl⟩ := h
          have : i = [] ∧ l = 0x22 := by
            cases i with
            | nil => simp at hil; exact ⟨rfl, hil.symm⟩
            | cons => simp at hil
          exact hq ⟨rfl, this.2⟩

theorem parsePair_cases (m : Args) (p : Bytes) : (NoValue p ∧ parsePair m p = .panic) ∨ (¬ NoValue p ∧ ∃ m', parsePair m p = .ok m') := by
  by_cases h : (0x3d : UInt8) ∈ p
  · obtain ⟨k, v, rfl, hk, -⟩ := index_split h
    by_cases hv : v = [] ∨ v = [0x22]
    · left
      exact ⟨⟨k, v, rfl, hk, hv⟩, by rw [parsePair_eq _ _ _ hk, if_pos hv]⟩
    · right
      refine ⟨?_, _, by rw [parsePair_eq _ _ _ hk, if_neg hv]⟩
      rintro ⟨k', v', e, hk', hv'⟩
      have := index_append hk v
      rw [e, index_append hk' v'] at this
      have hl : k'.length = k.length := by omega
      obtain ⟨-, e2⟩ := List.append_inj e.symm hl
      simp only [List.cons.injEq, true_and] at e2
      exact hv (e2 ▸ hv')
  · right
    refine ⟨?_, _, parsePair_none m p h⟩
    rintro ⟨k, v, rfl, -⟩
    simp at h

theorem pairLoop_cases : ∀ (ps : List Bytes) (m : Args), ((∃ p ∈ ps, NoValue p) ∧ pairLoop ps m = .panic) ∨
    ((∀ p ∈ ps, ¬ NoValue p) ∧ ∃ m', pairLoop ps m = .ok m')
  | [], m => Or.inr ⟨by simp, m, rfl⟩
  | p :: ps, m => by
    simp only [pairLoop]
    rcases parsePair_cases m p with ⟨h, e⟩ | ⟨h, m', e⟩
    · left; exact ⟨⟨p, by simp, h⟩, by rw [e]; rfl⟩
    · rw [e, Res.bind_ok]
      rcases pairLoop_cases ps m' with ⟨⟨q, hq, hq'⟩, e'⟩ | ⟨h', e'⟩
      · left; exact ⟨⟨q, by simp [hq], hq'⟩, e'⟩
      · right
        refine ⟨?_, e'⟩
        intro q hq
        rcases List.mem_cons.1 hq with rfl | hq
        · exact h
        · exact h' q hq

theorem vp_not_noValue {p : Bytes} (h : ValuesPresent p) : ¬ NoValue p := by
  rintro ⟨k, v, rfl, -, hv⟩
  have hs := h k v rfl
  rcases hv with rfl | rfl
  · rcases hs with ⟨c, t, hc, -⟩ | ⟨c, t, hc, -⟩ <;> simp at hc
  · rcases hs with ⟨c, t, hc, hp⟩ | ⟨c, t, hc, -⟩
    · simp only [List.cons.injEq] at hc
      exact plain_quote (hc.1 ▸ hp)
    · simp at hc

theorem parseArgsPairs_vp {s : Bytes} (hv : ValuesPresent s) : ∃ m, parseArgsPairs s = .ok m := by
  simp only [parseArgsPairs]
  rcases pairLoop_cases (parseList (trimSpace s)) [] with ⟨⟨p, hp, hn⟩, -⟩ | ⟨-, h⟩
  · exact absurd hn (vp_not_noValue (parseList_vp (vp_trimSpace hv) p hp))
  · exact h

theorem parseArgs_vp {s : Bytes} (hv : ValuesPresent s) : ∃ m, parseArgs s = .ok m := by
  by_cases h : (0x3b : UInt8) ∈ s
  · obtain ⟨a, r, rfl, hna, -⟩ := index_split h
    rw [parseArgs_split a r hna]
    exact parseArgsPairs_vp (vp_suffix (x := a ++ [0x3b]) (by simpa using hv))
  · exact ⟨[], parseArgs_none s h⟩

theorem newSIPRequest_vp {s : Bytes} (hv : ValuesPresent s) : ∃ m, newSIPRequest s = .ok m := by
  obtain ⟨m, hm⟩ := parseArgs_vp hv
  obtain ⟨q, hq⟩ := newSIPRequest_total s
  rw [hq, hm]; exact ⟨_, rfl⟩

theorem newSIPUser_vp {s : Bytes} (hv : ValuesPresent s) : ∃ m, newSIPUser s = .ok m := by
  obtain ⟨m, hm⟩ := parseArgs_vp hv
  obtain ⟨q, hq⟩ := newSIPUser_total s
  rw [hq, hm]; exact ⟨_, rfl⟩

theorem newSIPVia_vp {s : Bytes} (hv : ValuesPresent s) : ∃ m, newSIPVia s = .ok m := by
  obtain ⟨q, n, hq⟩ := newSIPVia_total s
  obtain ⟨m, hm⟩ := parseArgs_vp (s := s.drop n) (vp_suffix (x := s.take n) (by rw [List.take_append_drop]; exact hv))
  rw [hq, hm]; exact ⟨_, rfl⟩

theorem newSIPAuth_vp (U : Unicode) {s : Bytes} (hv : ValuesPresent s) : ∃ m, newSIPAuth U s = .ok m := by
  simp only [newSIPAuth]
  split
  · next h =>
    have h7 : goSlice s 0 7 = .ok (s.take 7) := by
      rw [show (0 : Int) = ((0 : Nat) : Int) from rfl, show (7 : Int) = ((7 : Nat) : Int) from rfl,
        goSlice_nat _ _ _ (by omega) (by omega)]; rfl
    have h8 : goSlice s 7 s.length = .ok (s.drop 7) := by
      rw [show (7 : Int) = ((7 : Nat) : Int) from rfl, goSlice_nat _ _ _ (by omega) (by omega), List.take_length]
    rw [h7, Res.bind_ok, h8, Res.bind_ok]
    split
    · exact parseArgsPairs_vp (vp_suffix (x := s.take 7) (by rw [List.take_append_drop]; exact hv))
    · exact ⟨_, rfl⟩
  · exact ⟨_, rfl⟩

end Verif.Sips
