import Verif.Lemmas.SipsMsg
import Verif.Lemmas.SipsPanic
/-!
# `Parse` does not panic on text whose arguments have values
-/
namespace Verif.Sips
open Verif.Str Verif.Spec.Sips

/-- Text in which every `=` is followed by a value. -/
def Good (v : Bytes) : Prop := ValuesPresent v

theorem good_nil : Good [] := vp_nil

theorem good_trim {cut : UInt8 → Bool} (hc : ∀ c, cut c = true → ¬ Plain c ∧ c ≠ 0x22) {s : Bytes} (h : Good s) :
    Good (trim cut s) := by
  obtain ⟨a, b, h1, -, h3⟩ := trim_split cut s
  have hv : ValuesPresent s := h
  rw [h1, List.append_assoc] at hv
  exact vp_prefix (vp_suffix hv) (ends_of_all _ hc h3)

theorem crlf_not_plain (c : UInt8) (h : crlf c = true) : ¬ Plain c ∧ c ≠ 0x22 := by
  simp only [crlf, Bool.or_eq_true, beq_iff_eq] at h
  rcases h with rfl | rfl <;> simp [Plain]

theorem space_only_not_plain (c : UInt8) (h : (c == 0x20) = true) : ¬ Plain c ∧ c ≠ 0x22 := by
  simp only [beq_iff_eq] at h
  subst h
  simp [Plain]

/-! ## Maps -/

theorem mget_mem {α} {m : List (Bytes × α)} {k : Bytes} {v : α} (h : mget m k = some v) : (k, v) ∈ m := by
  induction m with
  | nil => simp [mget] at h
  | cons e m ih =>
    obtain ⟨k', v'⟩ := e
    rw [mget] at h
    split at h
    · rename_i hk; simp at h; subst hk; subst h; simp
    · exact List.mem_cons_of_mem _ (ih h)

theorem any_key {α} (m : List (Bytes × α)) (k : Bytes) : m.any (fun e => e.1 == k) = (mget m k).isSome := by
  induction m with
  | nil => rfl
  | cons e m ih =>
    obtain ⟨k', v'⟩ := e
    rw [List.any_cons, ih, mget]
    by_cases hk : k' = k
    · simp [hk]
    · simp [hk]

theorem mem_mset {α} {m : List (Bytes × α)} {k : Bytes} {v : α} {e : Bytes × α} (h : e ∈ mset m k v) : e = (k, v) ∨ e ∈ m := by
  rw [mset] at h
  split at h
  · rw [List.mem_map] at h
    obtain ⟨x, hx, rfl⟩ := h
    split
    · left; rfl
    · right; exact hx
  · rw [List.mem_append, List.mem_singleton] at h
    exact h.symm

theorem mget_map {α} (m : List (Bytes × α)) (k q : Bytes) (v : α) :
    mget (m.map (fun e => if e.1 = k then (k, v) else e)) q =
      if q = k then (mget m k).map (fun _ => v) else mget m q := by
  induction m with
  | nil => simp [mget]
  | cons e m ih =>
    obtain ⟨k', v'⟩ := e
    rw [List.map_cons]
    by_cases hk : k' = k
    · subst hk
      rw [if_pos rfl, mget, ih, mget]
      by_cases hq : q = k'
      · subst hq; simp
      · rw [if_neg (Ne.symm hq), if_neg hq, if_neg hq, mget, if_neg (Ne.symm hq)]
    · rw [if_neg hk]
      simp only [mget, hk, if_false, ih]
      by_cases hq : q = k
      · subst hq; simp [hk]
      · simp [hq]

theorem mget_append {α} (m n : List (Bytes × α)) (q : Bytes) : mget (m ++ n) q = (mget m q).or (mget n q) := by
  induction m with
  | nil => simp [mget]
  | cons e m ih =>
    obtain ⟨k', v'⟩ := e
    rw [List.cons_append, mget, mget, ih]
    split <;> simp

/-- `m[k] = v` changes the entry of `k` and no other. -/
theorem mget_mset {α} (m : List (Bytes × α)) (k q : Bytes) (v : α) : mget (mset m k v) q = if q = k then some v else mget m q := by
  rw [mset, any_key]
  cases h : mget m k with
  | none =>
    simp only [Option.isSome_none, Bool.false_eq_true, if_false]
    rw [mget_append]
    by_cases hq : q = k
    · subst hq; simp [h, mget]
    · rw [if_neg hq]
      simp [mget, Ne.symm hq]
  | some w =>
    simp only [Option.isSome_some, if_true]
    rw [mget_map, h]
    rfl

/-! ## Headers -/

/-- The header map is not nil, holds no empty list and only good values; if `seen`, the last header parsed is in it. -/
structure HdrOk (seen : Bool) (s : Sip) : Prop where
  some : ∃ h, s.headers = some h
  vals : ∀ e ∈ s.hdr, e.2 ≠ [] ∧ ∀ v ∈ e.2, Good v
  last : seen = true → (mget s.hdr s.last).isSome = true

theorem vals_good {seen : Bool} {s : Sip} (h : HdrOk seen s) (k : Bytes) : ∀ v ∈ vals s.hdr k, Good v := by
  intro v hv
  rw [vals] at hv
  cases hm : mget s.hdr k with
  | none => rw [hm] at hv; simp at hv
  | some l => rw [hm] at hv; exact (h.vals _ (mget_mem hm)).2 v hv

theorem getFirstHeader_good (U : Unicode) {seen : Bool} {s : Sip} (h : HdrOk seen s) (n : Bytes) :
    Good (getFirstHeader U s.hdr n) := by
  rw [getFirstHeader]
  split
  · split
    · rename_i v vs hv
      exact vals_good h _ v (by rw [hv]; simp)
    · split
      · rename_i v vs hv
        exact vals_good h _ v (by rw [hv]; simp)
      · exact good_nil
  · exact good_nil

theorem putHeader_ok {seen : Bool} {s : Sip} (h : HdrOk seen s) (k : Bytes) (vs : List Bytes) (hne : vs ≠ [])
    (hv : ∀ v ∈ vs, Good v) : ∃ s', putHeader k vs s = (.ok (), s') ∧ s' = { s with headers := some (mset s.hdr k vs) } ∧
      HdrOk seen s' := by
  obtain ⟨m, hm⟩ := h.some
  have hh : s.hdr = m := by simp [Sip.hdr, hm]
  refine ⟨{ s with headers := some (mset s.hdr k vs) }, ?_, rfl, ⟨_, rfl⟩, ?_, ?_⟩
  · rw [putHeader, hm, hh]
  · intro e he
    have he : e ∈ mset s.hdr k vs := he
    rcases mem_mset he with rfl | he
    · exact ⟨hne, hv⟩
    · exact h.vals e he
  · intro hs
    have := h.last hs
    show (mget (mset s.hdr k vs) s.last).isSome = true
    rw [mget_mset]
    split
    · rfl
    · exact this

theorem trimSpace_good {s : Bytes} (h : Good s) : Good (trimSpace s) :=
  vp_trimSpace h

theorem goSet_last {α} (l : List α) (x y : α) : goSet (l ++ [x]) (((l ++ [x]).length : Int) - 1) y = .ok (l ++ [y]) := by
  rw [show ((l ++ [x]).length : Int) - 1 = ((l.length : Nat) : Int) by simp]
  rw [goSet]
  simp

theorem goIndex_last {α} (l : List α) (x : α) : goIndex (l ++ [x]) (((l ++ [x]).length : Int) - 1) = .ok x := by
  rw [show ((l ++ [x]).length : Int) - 1 = ((l.length : Nat) : Int) by simp]
  rw [goIndex]
  simp

/-- A header line. -/
theorem parseHeader_ok (U : Unicode) {seen : Bool} {s : Sip} (h : HdrOk seen s) (l : Bytes) (hl : Good l)
    (hfold : (l.head? = some 9 ∨ l.head? = some 0x20) → seen = true) :
    ∃ s', parseHeader U l s = (.ok (), s') ∧
      HdrOk (seen || (decide ((0x3a : UInt8) ∈ l) && decide (¬ (l.head? = some 9 ∨ l.head? = some 0x20)))) s' := by
  rw [parseHeader.eq_def]
  cases l with
  | nil => exact ⟨s, rfl, by simpa using h⟩
  | cons b t =>
    simp only [List.head?_cons, Option.some.injEq] at hfold
    simp only
    by_cases hb : b = 9 ∨ b = 0x20
    · rw [if_pos hb]
      have hseen := hfold hb
      subst hseen
      have hlast := h.last rfl
      obtain ⟨vs, hvs⟩ := Option.isSome_iff_exists.1 hlast
      have hvals : Sips.vals s.hdr s.last = vs := by rw [Sips.vals, hvs]; rfl
      have hne := (h.vals _ (mget_mem hvs)).1
      have hg := (h.vals _ (mget_mem hvs)).2
      have hne : vs ≠ [] := hne
      obtain ⟨i, x, hx⟩ : ∃ i x, vs = i ++ [x] := ⟨vs.dropLast, vs.getLast hne, (List.dropLast_concat_getLast hne).symm⟩
      simp only [GoM.bind_apply, GoM.get_apply, GoM.lift_apply, hvals]
      rw [hx, goIndex_last]
      simp only [goSet_last]
      have hgood : ∀ v ∈ i ++ [x ++ (b!" " ++ trimSpace (b :: t))], Good v := by
        intro v hv
        rw [List.mem_append, List.mem_singleton] at hv
        rcases hv with hv | rfl
        · exact hg v (by show v ∈ vs; rw [hx]; simp [hv])
        · have h1 : Good x := hg x (by show x ∈ vs; rw [hx]; simp)
          have h2 := trimSpace_good hl
          exact vp_append h1 (vp_append (vp_of_not_mem (by decide)) h2)
      obtain ⟨s', k1, -, k3⟩ := putHeader_ok h s.last _ (by simp) hgood
      exact ⟨s', k1, by simpa using k3⟩
    · rw [if_neg hb]
      by_cases hc : (0x3a : UInt8) ∈ b :: t
      · obtain ⟨x, y, hxy, hx, hi⟩ := index_split hc
        rw [if_pos (by rw [hi]; omega)]
        rw [hi, hxy]
        have e1 : goSlice (x ++ 0x3a :: y) 0 (x.length : Int) = .ok x := goSlice_prefix x _ _ rfl
        have e2 : goSlice (x ++ 0x3a :: y) ((x.length : Int) + 1) ((x ++ 0x3a :: y).length : Nat) = .ok y := by
          have := goSlice_suffix (x ++ [0x3a]) y (x.length + 1) (by simp)
          simpa using this
        simp only [GoM.bind_apply, GoM.get_apply, GoM.lift_apply, e1, e2]
        have hy : Good (trim (fun c => c == 0x20) y) := by
          apply good_trim space_only_not_plain
          rw [hxy] at hl
          have := hl
          rw [show x ++ 0x3a :: y = (x ++ [0x3a]) ++ y by simp] at this
          exact vp_suffix this
        obtain ⟨s', k1, k2, k3⟩ := putHeader_ok h (toLower U (trim (fun c => c == 0x20) x))
          (Sips.vals s.hdr (toLower U (trim (fun c => c == 0x20) x)) ++ [trim (fun c => c == 0x20) y]) (by simp)
          (by
            intro v hv
            rw [List.mem_append, List.mem_singleton] at hv
            rcases hv with hv | rfl
            · exact vals_good h _ v hv
            · exact hy)
        rw [k1]
        refine ⟨{ s' with last := toLower U (trim (fun c => c == 0x20) x) }, rfl, k3.some, k3.vals, ?_⟩
        intro _
        have hs' : s'.hdr = mset s.hdr (toLower U (trim (fun c => c == 0x20) x))
          (Sips.vals s.hdr (toLower U (trim (fun c => c == 0x20) x)) ++ [trim (fun c => c == 0x20) y]) := by rw [k2]; rfl
        show (mget s'.hdr _).isSome = true
        rw [hs', mget_mset, if_pos rfl]
        rfl
      · rw [if_neg (by rw [index_not_mem hc]; omega)]
        refine ⟨s, rfl, ?_⟩
        rw [decide_eq_false hc]
        simpa using h

/-- The first line: an outcome without panic, the headers unchanged. -/
theorem parseFirstLine_ok (U : Unicode) (s : Sip) (l : Bytes) (hl : Good l) :
    ∃ q s', parseFirstLine U l s = (q, s') ∧ (q = .ok () ∨ q = .err .other) ∧ s'.headers = s.headers ∧ s'.last = s.last := by
  rw [parseFirstLine]
  rcases hw : splitN c!" " 2 l with _ | ⟨w0, _ | ⟨w1, _ | ⟨w2, _ | ⟨w3, ws⟩⟩⟩⟩
  · exact ⟨_, s, rfl, .inr rfl, rfl, rfl⟩
  · exact ⟨_, s, rfl, .inr rfl, rfl, rfl⟩
  · exact ⟨_, s, rfl, .inr rfl, rfl, rfl⟩
  · have e := splitN_three hw
    have hg : Good w1 := by
      have hv := hl
      rw [e, show w0 ++ (0x20 : UInt8) :: (w1 ++ 0x20 :: w2) = (w0 ++ [0x20]) ++ (w1 ++ (0x20 :: w2)) by simp] at hv
      exact vp_prefix (vp_suffix hv) (fun c hc => by simp at hc; subst hc; simp [Plain])
    by_cases hp : hasPrefix w0 b!"SIP" = true
    · simp only [hp, if_true, GoM.bind_apply, GoM.modify_apply]
      rcases getSIPVersion U w0 with v | e | _ | _
      · simp only [GoM.modify_apply, GoM.bind_apply, GoM.lift_apply]
        rcases atoi_total w1 with ⟨i, hi⟩ | hi
        · rw [hi]; exact ⟨_, _, rfl, .inl rfl, rfl, rfl⟩
        · rw [hi]; exact ⟨_, _, rfl, .inr rfl, rfl, rfl⟩
      all_goals exact ⟨_, _, rfl, .inr rfl, rfl, rfl⟩
    · simp only [hp, if_false]
      obtain ⟨r, hr⟩ := newSIPRequest_vp hg
      rcases getSIPMethod U w0 with m | e | _ | _
      · simp only [GoM.bind_apply, GoM.modify_apply, GoM.lift_apply, hr]
        rcases getSIPVersion U w2 with v | e | _ | _
        · exact ⟨_, _, rfl, .inl rfl, rfl, rfl⟩
        all_goals exact ⟨_, _, rfl, .inr rfl, rfl, rfl⟩
      all_goals exact ⟨_, _, rfl, .inr rfl, rfl, rfl⟩
  · exact ⟨_, s, rfl, .inr rfl, rfl, rfl⟩

/-! ## The loop -/

theorem trim_head {l : Bytes} (h10 : (10 : UInt8) ∉ l) (h : (trim crlf l).head? = some 9 ∨ (trim crlf l).head? = some 0x20) :
    Folded l := by
  obtain ⟨a, b, h1, h2, -⟩ := trim_split crlf l
  have key : ∀ c, (trim crlf l).head? = some c → (c = 9 ∨ c = 0x20) → Folded l := by
    intro c hc hcc
    cases ht : trim crlf l with
    | nil => rw [ht] at hc; simp at hc
    | cons d t =>
      rw [ht] at hc h1
      simp at hc
      subst hc
      refine ⟨a, d, t ++ b, by rw [h1]; simp, ?_, hcc⟩
      intro x hx
      have h3 := h2 x hx
      simp only [crlf, Bool.or_eq_true, beq_iff_eq] at h3
      rcases h3 with h3 | h3
      · exact h3
      · subst h3; exact absurd (by rw [h1]; simp [hx]) h10
  rcases h with h | h
  · exact key 9 h (.inl rfl)
  · exact key 0x20 h (.inr rfl)

/-- An outcome that is neither a panic nor an endless loop; after success the headers are in order. -/
def SafeOut {α} (q : Res α × Sip × Rd) : Prop :=
  (∃ e, q.1 = .err e) ∨ ((∃ a, q.1 = .ok a) ∧ HdrOk false q.2.1)

theorem HdrOk.weaken {b : Bool} {s : Sip} (h : HdrOk b s) : HdrOk false s := ⟨h.some, h.vals, by simp⟩

/-- A line of any length. -/
theorem lineLoop_any (U : Unicode) (fuel : Nat) (first : Bool) (buf : Bytes) (off : Nat) (s : Sip) (r : Rd) (hr : r.Ok)
    (l rest : Bytes) (h : r.all = l ++ 10 :: rest) (hl : (10 : UInt8) ∉ l) :
    (∃ r1, lineLoop U (fuel + 1) first buf off s r = (.err .other, s, r1)) ∨
    ((∀ b ∈ l, b = 13) ∧ ∃ r1, r1.all = rest ∧ r1.Ok ∧ lineLoop U (fuel + 1) first buf off s r = (.ok (buf ++ (l ++ [10]), off), s, r1)) ∨
    ∃ r1, r1.all = rest ∧ r1.Ok ∧ r1.cap = r.cap ∧ r1.final = r.final ∧ 
      lineLoop U (fuel + 1) first buf off s r = match parseLine U first (trim crlf l) s with
        | (.ok _, s) => lineLoop U fuel false (buf ++ (l ++ [10])) (off + (l.length + 1)) s r1
        | (.err e, s) => (.err e, s, r1)
        | (.panic, s) => (.panic, s, r1)
        | (.diverge, s) => (.diverge, s, r1) := by
  by_cases hlen : l.length < r.cap
  · right
    by_cases ht : trim crlf l = []
    · left
      have hcr : ∀ b ∈ l, b = 13 := by
        intro b hb
        have := (trim_eq_nil_iff crlf l).1 ht b hb
        simp only [crlf, Bool.or_eq_true, beq_iff_eq] at this
        rcases this with h1 | h1
        · exact h1
        · subst h1; exact absurd hb hl
      obtain ⟨r1, g1, g2, g3, g4, g5⟩ := lineLoop_blank U fuel first buf off s r hr l rest h hcr hlen
      exact ⟨hcr, r1, g1, g2, g5⟩
    · right
      exact lineLoop_line U fuel first buf off s r hr l rest h hl ht hlen
  · left
    obtain ⟨l', e, r1, g1, g2, g3, g4, g5, g6⟩ := readSlice_cases 10 r hr
    rw [h] at g2
    have hlen2 := congrArg List.length g2
    simp only [List.length_append, List.length_cons] at hlen2
    rcases g6 with ⟨x, rfl, hx, rfl, g8⟩ | ⟨g7, g8, rfl⟩ | ⟨g7, g8, rfl, g9⟩
    · rw [List.append_assoc] at g2
      obtain ⟨rfl, -⟩ := first_unique g2 hl hx
      simp at g8
      omega
    · refine ⟨r1, ?_⟩
      rw [lineLoop_step U fuel first buf off s r r1 _ _ g1, if_pos (by simp)]
      rfl
    · rw [g9] at hlen2
      simp at hlen2
      omega

/-- The rest of the input after the last line feed. -/
theorem lineLoop_last (U : Unicode) (fuel : Nat) (first : Bool) (buf : Bytes) (off : Nat) (s : Sip) (r : Rd) (hr : r.Ok)
    (h10 : (10 : UInt8) ∉ r.all) :
    (∃ e r1, lineLoop U (fuel + 1) first buf off s r = (.err e, s, r1)) ∨
    (∃ b r1, r1.Ok ∧ lineLoop U (fuel + 1) first buf off s r = (.ok (b, off), s, r1)) ∨
    ∃ r1, r1.all = [] ∧ r1.Ok ∧ lineLoop U (fuel + 1) first buf off s r = match parseLine U first (trim crlf r.all) s with
        | (.ok _, s) => lineLoop U fuel false (buf ++ r.all) (off + r.all.length) s r1
        | (.err e, s) => (.err e, s, r1)
        | (.panic, s) => (.panic, s, r1)
        | (.diverge, s) => (.diverge, s, r1) := by
  obtain ⟨l, e, r1, g1, g2, g3, g4, g5, g6⟩ := readSlice_cases 10 r hr
  rw [lineLoop_step U fuel first buf off s r r1 _ _ g1]
  rcases g6 with ⟨x, rfl, hx, rfl, g8⟩ | ⟨g7, g8, rfl⟩ | ⟨g7, g8, rfl, g9⟩
  · exact absurd (by rw [g2]; simp) h10
  · left
    exact ⟨_, _, by rw [if_pos (by simp)]⟩
  · rw [g9, List.append_nil] at g2
    by_cases he : r.final = .eof
    · rw [if_neg (by simp [he])]
      right
      by_cases h0 : l.length = 0
      · left
        exact ⟨_, r1, g3, by rw [if_pos (by simp [h0])]⟩
      · rw [if_neg (by simp [h0])]
        by_cases ht : (trim crlf l).length = 0
        · left
          exact ⟨_, r1, g3, by rw [if_pos ht]⟩
        · right
          rw [if_neg ht, g2]
          exact ⟨r1, g9, g3, rfl⟩
    · left
      exact ⟨_, _, by rw [if_pos (by simp [he])]⟩

theorem good_line {l : Bytes} (h : Good l) : Good (trim crlf l) := good_trim crlf_not_plain h

/-- The header lines. -/
theorem lineLoop_safe (U : Unicode) (tail : Bytes) (htail : (∃ cr rest, tail = cr ++ 10 :: rest ∧ ∀ b ∈ cr, b = 13) ∨
      ((10 : UInt8) ∉ tail ∧ Good tail)) :
    ∀ (ls : List Bytes) (fuel : Nat) (seen : Bool) (buf : Bytes) (s : Sip) (r : Rd), r.Ok → HdrOk seen s →
      r.all = joinLines ls ++ tail → (∀ l ∈ ls, (10 : UInt8) ∉ l ∧ Good l) → (seen = true ∨ FoldsOk (ls ++ [tail])) →
      SafeOut (lineLoop U (ls.length + 2 + fuel) false buf buf.length s r) := by
  intro ls
  induction ls with
  | nil =>
    intro fuel seen buf s r hr hs hall hls hfold
    have hall : r.all = tail := by simpa using hall
    rw [show ([] : List Bytes).length + 2 + fuel = fuel + 1 + 1 by simp; omega]
    rcases htail with ⟨cr, rest, ht, hcr⟩ | ⟨h10, hg⟩
    · have h10 : (10 : UInt8) ∉ cr := fun hc => by simpa using hcr _ hc
      have htr : trim crlf cr = [] := trim_nil_of_all fun b hb => by rw [hcr b hb]; rfl
      rcases lineLoop_any U (fuel + 1) false buf buf.length s r hr cr rest (by rw [hall, ht]) h10 with
        ⟨r1, h1⟩ | ⟨-, r1, -, -, h1⟩ | ⟨r1, g1, g2, g3, g4, h1⟩
      · rw [h1]; exact .inl ⟨_, rfl⟩
      · rw [h1]; exact .inr ⟨⟨_, rfl⟩, hs.weaken⟩
      · have : cr.length < r.cap ∨ ¬ cr.length < r.cap := by omega
        rcases this with hc | hc
        · obtain ⟨r2, -, -, -, -, h2⟩ := lineLoop_blank U (fuel + 1) false buf buf.length s r hr cr rest (by rw [hall, ht]) hcr hc
          rw [h2]; exact .inr ⟨⟨_, rfl⟩, hs.weaken⟩
        · obtain ⟨l', e, r2, k1, k2, k3, k4, k5, k6⟩ := readSlice_cases 10 r hr
          rw [lineLoop_step U (fuel + 1) false buf buf.length s r r2 _ _ k1]
          rcases k6 with ⟨x, rfl, hx, rfl, k8⟩ | ⟨k7, k8, rfl⟩ | ⟨k7, k8, rfl, k9⟩
          · rw [hall, ht, List.append_assoc] at k2
            obtain ⟨rfl, -⟩ := first_unique k2 h10 hx
            simp at k8
            omega
          · rw [if_pos (by simp)]; exact .inl ⟨_, rfl⟩
          · rw [hall, ht, k9, List.append_nil] at k2
            have := congrArg List.length k2
            simp at this
            omega
    · rcases lineLoop_last U (fuel + 1) false buf buf.length s r hr (by rw [hall]; exact h10) with
        ⟨e, r1, h1⟩ | ⟨b, r1, -, h1⟩ | ⟨r1, g1, g2, h1⟩
      · rw [h1]; exact .inl ⟨_, rfl⟩
      · rw [h1]; exact .inr ⟨⟨_, rfl⟩, hs.weaken⟩
      · rw [h1, hall]
        obtain ⟨s', k1, k2⟩ := parseHeader_ok U hs (trim crlf tail) (good_line hg) (by
          intro hh
          rcases hfold with hf | hf
          · exact hf
          · exact absurd (trim_head h10 hh) hf.1)
        have k1 : parseLine U false (trim crlf tail) s = (.ok (), s') := k1
        rw [k1]
        obtain ⟨r2, -, -, -, -, h2⟩ := lineLoop_eof U fuel false (buf ++ tail) (buf.length + tail.length) s' r1 g2 g1
        simp only [h2]
        split
        · exact .inr ⟨⟨_, rfl⟩, k2.weaken⟩
        · exact .inl ⟨_, rfl⟩
  | cons l ls ih =>
    intro fuel seen buf s r hr hs hall hls hfold
    obtain ⟨hl10, hlg⟩ := hls l (by simp)
    rw [show (l :: ls).length + 2 + fuel = (ls.length + 2 + fuel) + 1 by simp; omega]
    rcases lineLoop_any U (ls.length + 2 + fuel) false buf buf.length s r hr l (joinLines ls ++ tail) (by simpa using hall) hl10 with
        ⟨r1, h1⟩ | ⟨-, r1, -, -, h1⟩ | ⟨r1, g1, g2, g3, g4, h1⟩
    · rw [h1]; exact .inl ⟨_, rfl⟩
    · rw [h1]; exact .inr ⟨⟨_, rfl⟩, hs.weaken⟩
    · rw [h1]
      obtain ⟨s', k1, k2⟩ := parseHeader_ok U hs (trim crlf l) (good_line hlg) (by
        intro hh
        rcases hfold with hf | hf
        · exact hf
        · exact absurd (trim_head hl10 hh) hf.1)
      have k1 : parseLine U false (trim crlf l) s = (.ok (), s') := k1
      rw [k1]
      have hlen : buf.length + (l.length + 1) = (buf ++ (l ++ [10])).length := by simp
      simp only [hlen]
      refine ih fuel _ (buf ++ (l ++ [10])) s' r1 g2 k2 g1 (fun m hm => hls m (by simp [hm])) ?_
      rcases hfold with hf | hf
      · left; simp [hf]
      · rcases hf.2 with hc | hf2
        · left
          have hc' : (0x3a : UInt8) ∈ trim crlf l := by
            obtain ⟨a, b, e1, e2, e3⟩ := trim_split crlf l
            rw [e1, List.mem_append, List.mem_append] at hc
            rcases hc with (hc | hc) | hc
            · exact absurd (e2 _ hc) (by decide)
            · exact hc
            · exact absurd (e3 _ hc) (by decide)
          have hh : ¬ ((trim crlf l).head? = some 9 ∨ (trim crlf l).head? = some 0x20) := fun hh => hf.1 (trim_head hl10 hh)
          simp [hc', hh]
        · right; exact hf2

theorem joinLines_length (ls : List Bytes) : ls.length ≤ (joinLines ls).length := by
  induction ls with
  | nil => simp
  | cons l ls ih => simp; omega

theorem fillHeader_safe (U : Unicode) {s : Sip} (h : HdrOk false s) : ∃ s', fillHeader U s = (.ok (), s') ∧ s'.hdr = s.hdr := by
  have g := fun n => getFirstHeader_good U h n
  obtain ⟨c, hc⟩ := newSIPUser_vp (g b!"contact")
  obtain ⟨f, hf⟩ := newSIPUser_vp (g b!"from")
  obtain ⟨t, ht⟩ := newSIPUser_vp (g b!"to")
  obtain ⟨v, hv⟩ := newSIPVia_vp (g b!"via")
  exact ⟨_, fillHeader_ok U s c f t v hc hf ht hv, rfl⟩

/-- `Parse` on good text. -/
theorem parse_safe (U : Unicode) (s : Sip) (hs : HdrOk false s) (r : Rd) (hr : r.Ok) (l0 : Bytes) (ls : List Bytes) (tail : Bytes)
    (hall : r.all = joinLines (l0 :: ls) ++ tail)
    (htail : (∃ cr rest, tail = cr ++ 10 :: rest ∧ ∀ b ∈ cr, b = 13) ∨ ((10 : UInt8) ∉ tail ∧ Good tail))
    (hls : ∀ l ∈ l0 :: ls, (10 : UInt8) ∉ l ∧ Good l) (hfold : FoldsOk (ls ++ [tail])) :
    (∃ e, (parse U s r).1 = .err e) ∨ (parse U s r).1 = .ok () := by
  have loop : SafeOut (lineLoop U (r.all.length + 2) true [] 0 s r) := by
    have hlen := congrArg List.length hall
    simp only [List.length_append, joinLines_cons, List.length_cons] at hlen
    have hj := joinLines_length ls
    rw [show r.all.length + 2 = (ls.length + 2 + (r.all.length - ls.length - 1)) + 1 by omega]
    rcases lineLoop_any U (ls.length + 2 + (r.all.length - ls.length - 1)) true [] 0 s r hr l0 (joinLines ls ++ tail)
      (by simpa using hall) (hls l0 (by simp)).1 with ⟨r1, h1⟩ | ⟨-, r1, -, -, h1⟩ | ⟨r1, g1, g2, g3, g4, h1⟩
    · rw [h1]; exact .inl ⟨_, rfl⟩
    · rw [h1]; exact .inr ⟨⟨_, rfl⟩, hs⟩
    · rw [h1]
      obtain ⟨q, s', k1, k2, k3, k4⟩ := parseFirstLine_ok U s (trim crlf l0) (good_line (hls l0 (by simp)).2)
      have k1 : parseLine U true (trim crlf l0) s = (q, s') := k1
      rw [k1]
      rcases k2 with rfl | rfl
      · have hs' : HdrOk false s' := by
          refine ⟨?_, ?_, by simp⟩
          · rw [k3]; exact hs.some
          · rw [Sip.hdr, k3]; exact hs.vals
        have := lineLoop_safe U tail htail ls (r.all.length - ls.length - 1) false (l0 ++ [10]) s' r1 g2 hs' g1
          (fun m hm => hls m (by simp [hm])) (.inr hfold)
        simpa using this
      · exact .inl ⟨_, rfl⟩
  rw [parse]
  rcases hq : lineLoop U (r.all.length + 2) true [] 0 s r with ⟨⟨b, o⟩ | e | _ | _, s1, r1⟩
  · rw [hq] at loop
    rcases loop with ⟨e, he⟩ | ⟨-, hs1⟩
    · simp at he
    · obtain ⟨ls', blank, k1, k2, -, k4, -⟩ := lineLoop_ok U _ true [] s s1 r r1 b o hr hq
      obtain ⟨s2, hf, -⟩ := fillHeader_safe U hs1
      rw [List.nil_append] at k1 k2
      subst k1; subst k2
      simp only
      rcases finish_cases U ls' blank s1 s2 r1 k4 hf with ⟨size, k, r', -, -, h, -⟩ | ⟨size, r', -, -, -, h⟩ | ⟨e, -, h⟩
      · rw [h]; exact .inr rfl
      · rw [h]; exact .inl ⟨_, rfl⟩
      · rw [h]; exact .inl ⟨_, rfl⟩
  · exact .inl ⟨_, rfl⟩
  · rw [hq] at loop; rcases loop with ⟨e, he⟩ | ⟨⟨a, ha⟩, -⟩
    · simp at he
    · simp at ha
  · rw [hq] at loop; rcases loop with ⟨e, he⟩ | ⟨⟨a, ha⟩, -⟩
    · simp at he
    · simp at ha

end Verif.Sips
