import Verif.Lemmas.SipsTrip
/-!
# A whole message: first line, header lines, body
-/
namespace Verif.Sips
open Verif.Str Verif.Spec.Sips

theorem ofBytes_ok (w : Bytes) : (Rd.ofBytes w).Ok ∧ (Rd.ofBytes w).all = w ∧ (Rd.ofBytes w).cap = 4096 ∧
    (Rd.ofBytes w).final = .eof := by
  refine ⟨⟨by simp [Rd.ofBytes], by simp [Rd.ofBytes]⟩, by simp [Rd.ofBytes, Rd.all], rfl, rfl⟩

theorem toLower_name (U : Unicode) {k : Bytes} (h : HeaderName k) : toLower U k = k :=
  toLower_keep U fun b hb => ⟨(HeaderName.not_crlf h hb).2.2.2.2, (h.chars b hb).2.2.2⟩

/-- The value of a header in a map of single values. -/
theorem getFirst_ones (U : Unicode) {hs : List (Bytes × Bytes)} (hn : (hs.map Prod.fst).Nodup) {k : Bytes}
    (hk : toLower U k = k) : (∃ v, (k, v) ∈ hs ∧ getFirstHeader U (hs.map one) k = v) ∨
      ((∀ v, (k, v) ∉ hs) ∧ getFirstHeader U (hs.map one) k = []) := by
  have hn' : ((hs.map one).map Prod.fst).Nodup := by rw [List.map_map]; exact hn
  by_cases h : ∃ v, (k, v) ∈ hs
  · obtain ⟨v, hv⟩ := h
    left
    refine ⟨v, hv, getFirstHeader_one U hk (mem_of_mget hn' ?_)⟩
    exact List.mem_map.2 ⟨(k, v), hv, rfl⟩
  · right
    refine ⟨fun v hv => h ⟨v, hv⟩, getFirstHeader_none U ?_⟩
    rw [hk]
    apply mget_one_none
    intro hc
    obtain ⟨e, he, rfl⟩ := List.mem_map.1 hc
    exact h ⟨e.2, he⟩

/-- If `Parse` succeeds, the lines before the blank one have been parsed without error. -/
theorem parse_blank_inv (U : Unicode) (s s' : Sip) (r r' : Rd) (hr : r.Ok) (ls : List Bytes) (cr rest : Bytes)
    (hall : r.all = joinLines ls ++ (cr ++ 10 :: rest)) (hls : ∀ l ∈ ls, (10 : UInt8) ∉ l ∧ trim crlf l ≠ [] ∧ l.length < r.cap)
    (hp : parse U s r = (.ok (), s', r')) : ∃ s1, runLines U true (ls.map (trim crlf)) s = (.ok (), s1) := by
  have hj := joinLines_length ls
  have hlen := congrArg List.length hall
  rw [List.length_append] at hlen
  obtain ⟨r1, g1, g2, g3, g4, g5, g6, g7⟩ :=
    lineLoop_lines U (cr ++ 10 :: rest) ls (r.all.length + 2 - ls.length) true [] 0 s r hr hall hls
  rw [parse, show r.all.length + 2 = ls.length + (r.all.length + 2 - ls.length) by omega] at hp
  rcases hrun : runLines U true (ls.map (trim crlf)) s with ⟨_ | e | _ | _, s1⟩
  · exact ⟨s1, rfl⟩
  · rw [g5 _ _ hrun] at hp; simp at hp
  · rw [g6 _ hrun] at hp; simp at hp
  · rw [g7 _ hrun] at hp; simp at hp

/-- The addresses that `Parse` looks at. -/
def addressNames : List Bytes := [b!"contact", b!"from", b!"to", b!"via"]

/-- A message parsed. -/
theorem parse_message (U : Unicode) (s0 : Sip) (l0 : Bytes) (hs : List (Bytes × Bytes)) (body d : Bytes)
    (hfirst : parseFirstLine U l0 Sip.new = (.ok (), s0)) (h0 : s0.headers = some [])
    (hl0 : ∀ b ∈ l0, b ≠ 13 ∧ b ≠ 10) (hne : l0 ≠ []) (hlen0 : l0.length + 2 ≤ 4096)
    (hn : (hs.map Prod.fst).Nodup) (hwf : ∀ e ∈ hs, HeaderName e.1 ∧ HeaderValue e.2 ∧ e.1.length + e.2.length + 4 ≤ 4096)
    (haddr : ∀ e ∈ hs, e.1 ∈ addressNames → Good e.2)
    (hcl : (b!"content-length", d) ∈ hs) (hd : IsDecimal d body.length) (hbody : body.length < 2 ^ 63) :
    ∃ k last c f t v, parseBytes U Sip.new (l0 ++ b!"\r\n" ++ hdrBytes (hs.map one) ++
        (if body = [] then [] else b!"\r\n" ++ body)) =
      (.ok (), { s0 with headers := some (hs.map one), last := last, contact := some c, cseq := some (getSIPCseq U (hs.map one)),
                         fromU := some f, toU := some t, via := some v,
                         contents := l0 ++ b!"\r\n" ++ hdrBytes (hs.map one),
                         payload := if body = [] then [] else b!"\r\n" ++ body.take k }) ∧
      getSIPContact U (hs.map one) = .ok c ∧ getSIPFrom U (hs.map one) = .ok f ∧ getSIPTo U (hs.map one) = .ok t ∧
      getSIPVia U (hs.map one) = .ok v ∧ k ≤ body.length ∧ body.length ≤ k + 2 ∧ (body.length ≤ 2 → k = 0) := by
  generalize hw : l0 ++ b!"\r\n" ++ hdrBytes (hs.map one) ++ (if body = [] then [] else b!"\r\n" ++ body) = w
  obtain ⟨hr, hall, hcap, hfin⟩ := ofBytes_ok w
  -- the lines
  have hlines : l0 ++ b!"\r\n" ++ hdrBytes (hs.map one) = joinLines ((l0 ++ [13]) :: hs.map hline) := by
    rw [hdrBytes_one, joinLines_cons]; simp
  have t0 : trim crlf (l0 ++ [13]) = l0 := by
    have := trim_mid (cut := crlf) (a := []) (s := l0) (b := [13]) (by simp) (by simp [crlf])
      (fun c hc => by have := hl0 c (List.mem_of_head? hc); simp [crlf, this.1, this.2])
      (fun c hc => by have := hl0 c (List.mem_of_getLast? hc); simp [crlf, this.1, this.2])
    simpa using this
  have hls : ∀ l ∈ (l0 ++ [13]) :: hs.map hline, (10 : UInt8) ∉ l ∧ trim crlf l ≠ [] ∧ l.length < (Rd.ofBytes w).cap := by
    intro l hl
    rw [hcap]
    rcases List.mem_cons.1 hl with rfl | hl
    · refine ⟨?_, by rw [t0]; exact hne, by simp; omega⟩
      intro hc
      rw [List.mem_append, List.mem_singleton] at hc
      rcases hc with hc | hc
      · exact (hl0 _ hc).2 rfl
      · simp at hc
    · obtain ⟨e, he, rfl⟩ := List.mem_map.1 hl
      obtain ⟨w1, w2, w3⟩ := hwf e he
      obtain ⟨g1, g2⟩ := hline_trim w1 w2
      refine ⟨g2, by rw [g1]; simp, by simp [hline]; omega⟩
  have hrun : ∃ last, runLines U true (((l0 ++ [13]) :: hs.map hline).map (trim crlf)) Sip.new =
      (.ok (), { s0 with headers := some (hs.map one), last := last }) := by
    have hp : parseLine U true l0 Sip.new = (.ok (), s0) := hfirst
    rw [List.map_cons, t0, runLines, hp]
    simp only [List.map_map]
    obtain ⟨last, h⟩ := runLines_headers U hs [] s0 (by rw [h0]; rfl) (by simpa using hn) (fun e he => ⟨(hwf e he).1, (hwf e he).2.1⟩)
    exact ⟨last, by simpa [Function.comp_def] using h⟩
  obtain ⟨last, hrun⟩ := hrun
  -- the addresses
  have hgood : ∀ n ∈ addressNames, Good (getFirstHeader U (hs.map one) n) := by
    intro n hn'
    have hlow : toLower U n = n := by
      apply toLower_keep
      have : ∀ n ∈ addressNames, ∀ b ∈ n, b < 0x80 ∧ ¬ (0x41 ≤ b ∧ b ≤ 0x5a) := by decide +kernel
      exact this n hn'
    rcases getFirst_ones U hn hlow with ⟨v, h1, h2⟩ | ⟨-, h2⟩
    · rw [h2]; exact haddr _ h1 hn'
    · rw [h2]; exact good_nil
  obtain ⟨c, hc⟩ := newSIPUser_vp (hgood b!"contact" (by decide))
  obtain ⟨f, hf⟩ := newSIPUser_vp (hgood b!"from" (by decide))
  obtain ⟨t, ht⟩ := newSIPUser_vp (hgood b!"to" (by decide))
  obtain ⟨v, hv⟩ := newSIPVia_vp (hgood b!"via" (by decide))
  have hfill := fillHeader_ok U { s0 with headers := some (hs.map one), last := last } c f t v hc hf ht hv
  have hlen : getContentLength U (hs.map one) = .ok (body.length : Int) := by
    have hn' : ((hs.map one).map Prod.fst).Nodup := by rw [List.map_map]; exact hn
    have hlow : toLower U b!"content-length" = b!"content-length" := by
      apply toLower_keep; decide
    rw [getContentLength, getFirstHeader_one U hlow (mem_of_mget hn' (v := [d]) (List.mem_map.2 ⟨_, hcl, rfl⟩))]
    exact atoi_decimal hd hbody
  by_cases hb : body = []
  · subst hb
    simp only [if_true, List.append_nil] at hw
    rw [hlines] at hw
    obtain ⟨r1, g1, g2, g3, g4, g5⟩ := parse_eof U Sip.new _ (Rd.ofBytes w) hr _ (by rw [hall, ← hw]) hfin hls hrun
    rcases finish_cases U (joinLines ((l0 ++ [13]) :: hs.map hline)) [] _ _ r1 g1 hfill with
      ⟨size, k, r', k1, k2, k3, -⟩ | ⟨size, r', k1, k2, k3, k4⟩ | ⟨e, k1, k2⟩
    · refine ⟨0, last, c, f, t, v, ?_, hc, hf, ht, hv, by simp, by simp, fun _ => rfl⟩
      rw [parseBytes, g5, k3, hlines, g2]
      simp [Sip.hdr]
    · exact absurd (g4.trans hfin) k3
    · have k1 : getContentLength U (hs.map one) = .err e := k1
      rw [hlen] at k1
      simp at k1
  · rw [if_neg hb, hlines] at hw
    obtain ⟨r1, g1, g2, g3, g4, g5⟩ := parse_blank U Sip.new _ Sip.new (Rd.ofBytes w) hr _ [13] body (by rw [hall, ← hw]; rfl)
      (by simp) (by rw [hcap]; simp) hls hrun
    rcases finish_cases U (joinLines ((l0 ++ [13]) :: hs.map hline)) ([13] ++ [10]) _ _ r1 g1 hfill with
      ⟨size, k, r', k1, k2, k3, k4, k5, k6, k7, k8, k9⟩ | ⟨size, r', k1, k2, k3, k4⟩ | ⟨e, k1, k2⟩
    · have k1 : getContentLength U (hs.map one) = .ok size := k1
      rw [hlen] at k1
      simp only [Res.ok.injEq] at k1
      rw [g2] at k5 k7 k8
      simp only [List.length_append, List.length_cons, List.length_nil] at k6 k7
      refine ⟨k, last, c, f, t, v, ?_, hc, hf, ht, hv, k5, ?_, ?_⟩
      · rw [parseBytes, g5, k3, hlines, g2]
        simp [hb, Sip.hdr]
      · have := k7 (by omega); omega
      · intro h2; exact k6 (by omega)
    · exact absurd (g4.trans hfin) k3
    · have k1 : getContentLength U (hs.map one) = .err e := k1
      rw [hlen] at k1
      simp at k1

end Verif.Sips
