import Verif.Lemmas.SipsSafe
/-!
# Messages built and parsed again
-/
namespace Verif.Sips
open Verif.Str Verif.Spec.Sips

/-! ## From the lines to the message -/

/-- Lines, a blank line and a body. -/
theorem parse_blank (U : Unicode) (s s1 s2 : Sip) (r : Rd) (hr : r.Ok) (ls : List Bytes) (cr rest : Bytes)
    (hall : r.all = joinLines ls ++ (cr ++ 10 :: rest)) (hcr : ∀ b ∈ cr, b = 13) (hcap : cr.length < r.cap)
    (hls : ∀ l ∈ ls, (10 : UInt8) ∉ l ∧ trim crlf l ≠ [] ∧ l.length < r.cap)
    (hrun : runLines U true (ls.map (trim crlf)) s = (.ok (), s1)) :
    ∃ r1, r1.Ok ∧ r1.all = rest ∧ r1.cap = r.cap ∧ r1.final = r.final ∧
      parse U s r = finish U (joinLines ls ++ (cr ++ [10])) (joinLines ls).length s1 r1 := by
  have hj := joinLines_length ls
  have hlen := congrArg List.length hall
  rw [List.length_append] at hlen
  obtain ⟨r1, g1, g2, g3, g4, -, -⟩ := lineLoop_lines U (cr ++ 10 :: rest) ls (r.all.length + 2 - ls.length) true [] 0 s r hr hall hls
  obtain ⟨g5, g6⟩ := g4 s1 hrun
  obtain ⟨r2, k1, k2, k3, k4, k5⟩ := lineLoop_blank U (r.all.length + 1 - ls.length) (true && ls.isEmpty) ([] ++ joinLines ls)
    (0 + (joinLines ls).length) s1 r1 g1 cr rest g5 hcr (by rw [g2]; exact hcap)
  refine ⟨r2, k2, k1, by rw [k3, g2], by rw [k4, g3], ?_⟩
  rw [parse, show r.all.length + 2 = ls.length + (r.all.length + 2 - ls.length) by omega, g6,
    show r.all.length + 2 - ls.length = r.all.length + 1 - ls.length + 1 by omega, k5]
  simp

/-- Lines and nothing else. -/
theorem parse_eof (U : Unicode) (s s1 : Sip) (r : Rd) (hr : r.Ok) (ls : List Bytes) (hall : r.all = joinLines ls)
    (he : r.final = .eof) (hls : ∀ l ∈ ls, (10 : UInt8) ∉ l ∧ trim crlf l ≠ [] ∧ l.length < r.cap)
    (hrun : runLines U true (ls.map (trim crlf)) s = (.ok (), s1)) :
    ∃ r1, r1.Ok ∧ r1.all = [] ∧ r1.cap = r.cap ∧ r1.final = r.final ∧
      parse U s r = finish U (joinLines ls ++ []) (joinLines ls).length s1 r1 := by
  have hj := joinLines_length ls
  have hlen := congrArg List.length hall
  obtain ⟨r1, g1, g2, g3, g4, -, -⟩ := lineLoop_lines U [] ls (r.all.length + 2 - ls.length) true [] 0 s r hr (by simpa using hall) hls
  obtain ⟨g5, g6⟩ := g4 s1 hrun
  obtain ⟨r2, k1, k2, k3, k4, k5⟩ := lineLoop_eof U (r.all.length + 1 - ls.length) (true && ls.isEmpty) ([] ++ joinLines ls)
    (0 + (joinLines ls).length) s1 r1 g1 g5
  refine ⟨r2, k2, k1, by rw [k3, g2], by rw [k4, g3], ?_⟩
  rw [parse, show r.all.length + 2 = ls.length + (r.all.length + 2 - ls.length) by omega, g6,
    show r.all.length + 2 - ls.length = r.all.length + 1 - ls.length + 1 by omega, k5, g3, he]
  simp

/-! ## Header lines -/

/-- A header line without its line feed. -/
def hline (e : Bytes × Bytes) : Bytes := e.1 ++ 0x3a :: 0x20 :: (e.2 ++ [13])

/-- The entry of a header with one value. -/
def one (e : Bytes × Bytes) : Bytes × List Bytes := (e.1, [e.2])

theorem headerItem_one (e : Bytes × Bytes) : headerItem (one e) = hline e ++ [10] := by
  simp [headerItem, one, hline]

theorem hdrBytes_one (hs : List (Bytes × Bytes)) : hdrBytes (hs.map one) = joinLines (hs.map hline) := by
  rw [hdrBytes, joinLines, List.map_map, List.map_map]
  congr 1
  exact List.map_congr_left fun e _ => headerItem_one e

theorem HeaderName.not_crlf {k : Bytes} (h : HeaderName k) {b : UInt8} (hb : b ∈ k) : b ≠ 10 ∧ b ≠ 13 ∧ b ≠ 0x20 ∧ b ≠ 9 ∧ b < 0x80 := by
  obtain ⟨h1, h2, -⟩ := h.chars b hb
  rw [UInt8.le_iff_toNat_le] at h1 h2
  refine ⟨?_, ?_, ?_, ?_, ?_⟩
  · rintro rfl; simp at h1
  · rintro rfl; simp at h1
  · rintro rfl; simp at h1
  · rintro rfl; simp at h1
  · rw [UInt8.lt_iff_toNat_lt]; simp at h2 ⊢; omega

/-- What `Parse` makes of a header line. -/
theorem hline_trim {e : Bytes × Bytes} (hk : HeaderName e.1) (hv : HeaderValue e.2) :
    trim crlf (hline e) = e.1 ++ 0x3a :: 0x20 :: e.2 ∧ (10 : UInt8) ∉ hline e := by
  obtain ⟨k, v⟩ := e
  have hk : HeaderName k := hk
  have hv : HeaderValue v := hv
  constructor
  · have := trim_mid (cut := crlf) (a := []) (s := k ++ 0x3a :: 0x20 :: v) (b := [13]) (by simp) (by simp [crlf]) ?_ ?_
    · simpa [hline] using this
    · intro c hc
      obtain ⟨x, k', rfl⟩ := List.exists_cons_of_ne_nil hk.nonempty
      simp at hc
      subst hc
      obtain ⟨h1, h2, -⟩ := HeaderName.not_crlf hk (b := x) (by simp)
      simp [crlf, h1, h2]
    · intro c hc
      cases v with
      | nil =>
        rw [List.getLast?_append] at hc
        simp at hc
        subst hc
        rfl
      | cons x v =>
        rw [List.getLast?_append] at hc
        have hm : c ∈ x :: v := by
          simp at hc
          exact List.mem_of_getLast? (by simpa using hc)
        obtain ⟨h1, h2⟩ := hv.chars c hm
        simp [crlf, h1, h2]
  · intro h
    simp only [hline, List.mem_append, List.mem_cons, List.not_mem_nil, or_false] at h
    rcases h with h | h | h | h | h
    · exact (HeaderName.not_crlf hk h).1 rfl
    · simp at h
    · simp at h
    · exact (hv.chars _ h).2 rfl
    · simp at h

/-- A header line parsed: a new entry in the map. -/
theorem parseHeader_line (U : Unicode) (s : Sip) (h : Hdr) (hs : s.headers = some h) (e : Bytes × Bytes) (hk : HeaderName e.1)
    (hv : HeaderValue e.2) (hnew : mget h e.1 = none) :
    parseHeader U (e.1 ++ 0x3a :: 0x20 :: e.2) s = (.ok (), { s with headers := some (h ++ [one e]), last := e.1 }) := by
  obtain ⟨k, v⟩ := e
  have hk : HeaderName k := hk
  have hv : HeaderValue v := hv
  have hnew : mget h k = none := hnew
  have hc : (0x3a : UInt8) ∉ k := fun hc => (hk.chars _ hc).2.2.1 rfl
  obtain ⟨x, k', hx⟩ := List.exists_cons_of_ne_nil hk.nonempty
  have hx' := HeaderName.not_crlf hk (b := x) (by rw [hx]; simp)
  have hdef : ∀ l : Bytes, l = x :: (k' ++ 0x3a :: 0x20 :: v) → parseHeader U l s = (.ok (), { s with headers := some (h ++ [one (k, v)]), last := k }) := by
    intro l hl
    rw [parseHeader.eq_def, hl]
    simp only
    rw [if_neg (by simp [hx'.2.2.2.1, hx'.2.2.1])]
    have hidx : index 0x3a (x :: (k' ++ 0x3a :: 0x20 :: v)) = (k.length : Int) := by
      have := index_append hc (0x20 :: v)
      rw [hx] at this ⊢
      exact this
    rw [hidx, if_pos (by omega)]
    have e1 : goSlice (x :: (k' ++ 0x3a :: 0x20 :: v)) 0 (k.length : Int) = .ok k := by
      have := goSlice_prefix k (0x3a :: 0x20 :: v) k.length rfl
      rw [hx] at this ⊢
      exact this
    have e2 : goSlice (x :: (k' ++ 0x3a :: 0x20 :: v)) ((k.length : Int) + 1) ((x :: (k' ++ 0x3a :: 0x20 :: v)).length : Nat) =
        .ok (0x20 :: v) := by
      have := goSlice_suffix (k ++ [0x3a]) (0x20 :: v) (k.length + 1) (by simp)
      rw [hx] at this ⊢
      simpa using this
    have t1 : trim (fun c => c == 0x20) k = k := by
      apply trim_keep
      · intro c hc'
        have := (HeaderName.not_crlf hk (List.mem_of_head? hc')).2.2.1
        simpa using this
      · intro c hc'
        have := (HeaderName.not_crlf hk (List.mem_of_getLast? hc')).2.2.1
        simpa using this
    have t2 : trim (fun c => c == 0x20) (0x20 :: v) = v := by
      have := trim_mid (cut := fun c => c == 0x20) (a := [0x20]) (s := v) (b := []) (by simp) (by simp)
        (fun c hc' => by
          have := hv.first
          rw [hc'] at this
          simpa using this)
        (fun c hc' => by
          have := hv.last
          rw [hc'] at this
          simpa using this)
      simpa using this
    have t3 : toLower U k = k := toLower_keep U fun b hb => ⟨(HeaderName.not_crlf hk hb).2.2.2.2, (hk.chars b hb).2.2.2⟩
    have hvals : Sips.vals s.hdr k = [] := by rw [Sips.vals, Sip.hdr, hs]; simp [hnew]
    simp only [GoM.bind_apply, GoM.get_apply, GoM.lift_apply, e1, e2, t1, t2, t3, hvals, putHeader, hs, GoM.modify_apply]
    have hm : mset h k ([] ++ [v]) = h ++ [one (k, v)] := by
      rw [mset, any_key, hnew]
      simp [one]
    rw [hm]
  have := hdef (k ++ 0x3a :: 0x20 :: v) (by rw [hx]; rfl)
  exact this

theorem mget_one_none (hs : List (Bytes × Bytes)) (k : Bytes) (h : k ∉ hs.map Prod.fst) : mget (hs.map one) k = none := by
  induction hs with
  | nil => rfl
  | cons e hs ih =>
    simp only [List.map_cons, List.mem_cons, not_or] at h
    rw [List.map_cons, one, mget, if_neg (Ne.symm h.1)]
    exact ih h.2

/-- All the header lines. -/
theorem runLines_headers (U : Unicode) : ∀ (hs done : List (Bytes × Bytes)) (s : Sip), s.headers = some (done.map one) →
    ((done ++ hs).map Prod.fst).Nodup → (∀ e ∈ hs, HeaderName e.1 ∧ HeaderValue e.2) →
    ∃ last, runLines U false (hs.map fun e => trim crlf (hline e)) s =
      (.ok (), { s with headers := some ((done ++ hs).map one), last := last }) := by
  intro hs
  induction hs with
  | nil =>
    intro done s h _ _
    refine ⟨s.last, ?_⟩
    rw [List.map_nil, runLines, List.append_nil, ← h]
  | cons e hs ih =>
    intro done s h hn hwf
    obtain ⟨hk, hv⟩ := hwf e (by simp)
    have hnew : mget (done.map one) e.1 = none := by
      apply mget_one_none
      rw [List.map_append, List.nodup_append] at hn
      intro hc
      exact hn.2.2 _ hc e.1 (by simp) rfl
    have hp := parseHeader_line U s _ h e hk hv hnew
    rw [← (hline_trim hk hv).1] at hp
    have hp : parseLine U false (trim crlf (hline e)) s = _ := hp
    rw [List.map_cons, runLines, hp]
    have hd : done.map one ++ [one e] = (done ++ [e]).map one := by simp
    obtain ⟨last, hl⟩ := ih (done ++ [e]) { s with headers := some (done.map one ++ [one e]), last := e.1 } (by rw [hd])
      (by simpa using hn) (fun e' he' => hwf e' (by simp [he']))
    refine ⟨last, ?_⟩
    simp only [hl]
    simp

/-! ## First lines -/

theorem parseFirstLine_request (U : Unicode) (s : Sip) (w0 w1 w2 : Bytes) (m : UInt16) (v : UInt8) (q : Request)
    (h0 : (0x20 : UInt8) ∉ w0) (h1 : (0x20 : UInt8) ∉ w1) (hp : hasPrefix w0 b!"SIP" = false) (hm : getSIPMethod U w0 = .ok m)
    (hq : newSIPRequest w1 = .ok q) (hv : getSIPVersion U w2 = .ok v) :
    parseFirstLine U (w0 ++ 0x20 :: (w1 ++ 0x20 :: w2)) s = (.ok (), { s with method := m, request := some q, version := v }) := by
  rw [parseFirstLine, splitN_two h0 h1]
  simp only [hp, hm, hq, hv, GoM.bind_apply, GoM.modify_apply, GoM.lift_apply, Bool.false_eq_true, if_false]

theorem parseFirstLine_response (U : Unicode) (s : Sip) (w0 w1 w2 : Bytes) (i : Int) (v : UInt8)
    (h0 : (0x20 : UInt8) ∉ w0) (h1 : (0x20 : UInt8) ∉ w1) (hp : hasPrefix w0 b!"SIP" = true) (hv : getSIPVersion U w0 = .ok v)
    (hi : atoi w1 = .ok i) :
    parseFirstLine U (w0 ++ 0x20 :: (w1 ++ 0x20 :: w2)) s =
      (.ok (), { s with isResponse := true, version := v, responseCode := i, responseStatus := w2 }) := by
  rw [parseFirstLine, splitN_two h0 h1]
  simp only [hp, hv, hi, GoM.bind_apply, GoM.modify_apply, GoM.lift_apply, if_true]

/-! ## Single-valued header maps -/

theorem exists_ones {h : Hdr} (h1 : ∀ e ∈ h, ∃ v, e.2 = [v]) : ∃ hs : List (Bytes × Bytes), h = hs.map one := by
  induction h with
  | nil => exact ⟨[], rfl⟩
  | cons e h ih =>
    obtain ⟨hs, rfl⟩ := ih fun e' he' => h1 e' (by simp [he'])
    obtain ⟨v, hv⟩ := h1 e (by simp)
    refine ⟨(e.1, v) :: hs, ?_⟩
    rw [List.map_cons, one, ← hv]

theorem mset_keys_nodup {α} {m : List (Bytes × α)} (k : Bytes) (v : α) (h : (m.map Prod.fst).Nodup) :
    ((mset m k v).map Prod.fst).Nodup := by
  rw [mset, any_key]
  cases hk : mget m k with
  | none =>
    simp only [Option.isSome_none, Bool.false_eq_true, if_false, List.map_append, List.map_cons, List.map_nil]
    rw [List.nodup_append]
    refine ⟨h, by simp, ?_⟩
    intro a ha b hb
    rw [List.mem_singleton] at hb
    subst hb
    rintro rfl
    obtain ⟨e, he, rfl⟩ := List.mem_map.1 ha
    clear h ha
    induction m with
    | nil => simp at he
    | cons x m ih =>
      obtain ⟨k', v'⟩ := x
      rw [mget] at hk
      split at hk
      · simp at hk
      · rename_i hne
        rcases List.mem_cons.1 he with rfl | he
        · exact hne rfl
        · exact ih he hk
  | some w =>
    simp only [Option.isSome_some, if_true, List.map_map]
    have : (m.map (Prod.fst ∘ fun e => if e.1 = k then (k, v) else e)) = m.map Prod.fst := by
      apply List.map_congr_left
      intro e _
      simp only [Function.comp]
      split
      · rename_i he; exact he.symm
      · rfl
    rw [this]
    exact h

theorem mem_of_mget {α} {m : List (Bytes × α)} (h : (m.map Prod.fst).Nodup) {k : Bytes} {v : α} (hm : (k, v) ∈ m) :
    mget m k = some v := by
  induction m with
  | nil => simp at hm
  | cons x m ih =>
    obtain ⟨k', v'⟩ := x
    simp only [List.map_cons, List.nodup_cons] at h
    rw [mget]
    rcases List.mem_cons.1 hm with h1 | h1
    · obtain ⟨rfl, rfl⟩ := Prod.mk.inj h1
      rw [if_pos rfl]
    · rw [if_neg, ih h.2 h1]
      rintro rfl
      exact h.1 (List.mem_map.2 ⟨_, h1, rfl⟩)

theorem mget_iff {α} {m : List (Bytes × α)} (h : (m.map Prod.fst).Nodup) {k : Bytes} {v : α} : mget m k = some v ↔ (k, v) ∈ m :=
  ⟨mget_mem, mem_of_mget h⟩

theorem mget_perm {α} {m n : List (Bytes × α)} (h : (m.map Prod.fst).Nodup) (hp : n.Perm m) (k : Bytes) : mget n k = mget m k := by
  have hn : (n.map Prod.fst).Nodup := ((hp.map Prod.fst).nodup_iff).2 h
  cases hm : mget m k with
  | some v => exact (mget_iff hn).2 (hp.mem_iff.2 (mget_mem hm))
  | none =>
    cases hk : mget n k with
    | none => rfl
    | some v =>
      have := (mget_iff h).2 (hp.mem_iff.1 (mget_mem hk))
      rw [hm] at this
      simp at this

theorem getFirstHeader_one (U : Unicode) {h : Hdr} {k v : Bytes} (hk : toLower U k = k) (hm : mget h k = some [v]) :
    getFirstHeader U h k = v := by
  simp only [getFirstHeader, hk, Sips.vals, hm, Option.isSome_some, if_true, Option.getD_some]

theorem getFirstHeader_none (U : Unicode) {h : Hdr} {k : Bytes} (hm : mget h (toLower U k) = none) : getFirstHeader U h k = [] := by
  simp only [getFirstHeader, hm, Option.isSome_none, Bool.false_eq_true, if_false]

end Verif.Sips
