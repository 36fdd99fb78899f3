import Verif.Lemmas.SipsAccept
import Verif.Props.SipsMore
/-! # C148: only SIP messages are accepted -/
namespace Verif.Props
open Verif.Str Verif.Spec Verif.Spec.Sips Verif.Sips

/-- What the message holds of header fields: every ASCII name, in any letter case, finds all the values under it, in their order, and
the addresses are those of the first field of their name. -/
structure Holds (U : Unicode) (m : Sip) (fs : List (Bytes × Bytes)) : Prop where
  all : ∀ n, Ascii n → getHeader U m.hdr n = valuesOf fs n
  first : ∀ n, Ascii n → getFirstHeader U m.hdr n = (valuesOf fs n).head?.getD []
  from_ : ∃ u, newSIPUser ((valuesOf fs (text "from")).head?.getD []) = .ok u ∧ m.fromU = some u
  to_ : ∃ u, newSIPUser ((valuesOf fs (text "to")).head?.getD []) = .ok u ∧ m.toU = some u
  contact : ∃ u, newSIPUser ((valuesOf fs (text "contact")).head?.getD []) = .ok u ∧ m.contact = some u
  via : ∃ u, newSIPVia ((valuesOf fs (text "via")).head?.getD []) = .ok u ∧ m.via = some u
  cseq : m.cseq = some (newSIPCseq ((valuesOf fs (text "cseq")).head?.getD []))

theorem fillHeader_holds (U : Unicode) (s s1 : Sip) (hd : Hdr) (hs : s.headers = some hd) (fs : List (Bytes × Bytes)) (hsh : Shows hd fs)
    (h : fillHeader U s = (.ok (), s1)) : Holds U s1 fs ∧ ∃ c q f t v, s1 = { s with contact := c, cseq := q, fromU := f, toU := t, via := v } := by
  have hget : ∀ n, Ascii n → getFirstHeader U hd n = (valuesOf fs n).head?.getD [] := by
    intro n hn
    rw [(hsh.getHeader U n).2, under_valuesOf U fs hn]
  have a : ∀ n ∈ [text "from", text "to", text "contact", text "via", text "cseq"], Ascii n := by
    simp only [Ascii]; decide +kernel
  have e0 : s.hdr = hd := by rw [Sip.hdr, hs]; rfl
  have hf := hget _ (a (text "from") (by simp))
  have ht := hget _ (a (text "to") (by simp))
  have hc := hget _ (a (text "contact") (by simp))
  have hv := hget _ (a (text "via") (by simp))
  have hq := hget _ (a (text "cseq") (by simp))
  have tf : text "from" = b!"from" := by decide +kernel
  have tt : text "to" = b!"to" := by decide +kernel
  have tc : text "contact" = b!"contact" := by decide +kernel
  have tv : text "via" = b!"via" := by decide +kernel
  have tq : text "cseq" = b!"cseq" := by decide +kernel
  rcases xc : getSIPContact U hd with c | e | _ | _
  rcases xf : getSIPFrom U hd with f | e | _ | _
  rcases xt : getSIPTo U hd with t | e | _ | _
  rcases xv : getSIPVia U hd with v | e | _ | _
  · rw [fillHeader_ok U s c f t v (e0 ▸ xc) (e0 ▸ xf) (e0 ▸ xt) (e0 ▸ xv)] at h
    simp only [Prod.mk.injEq, true_and] at h
    subst h
    refine ⟨⟨fun n hn => ?_, fun n hn => ?_, ⟨f, ?_, rfl⟩, ⟨t, ?_, rfl⟩, ⟨c, ?_, rfl⟩, ⟨v, ?_, rfl⟩, ?_⟩, _, _, _, _, _, rfl⟩
    · rw [← under_valuesOf U fs hn]; simp only [Sip.hdr, hs]; exact (hsh.getHeader U n).1
    · simp only [Sip.hdr, hs]; exact hget n hn
    · rw [← hf, ← xf, tf]; rfl
    · rw [← ht, ← xt, tt]; rfl
    · rw [← hc, ← xc, tc]; rfl
    · rw [← hv, ← xv, tv]; rfl
    · rw [← hq, e0, tq]; rfl
  all_goals simp [fillHeader, GoM.bind_apply, GoM.get_apply, GoM.modify_apply, GoM.lift_apply, Sip.hdr, *] at h

/-- C148 (partial): every message that a new object accepts consists of lines, the first of which is a request line or a status line of
SIP, and the others header lines; what the message reports is what these lines say, and there is a content length.
(Missing: header lines without a colon, status codes that are no three digits and messages without the mandatory fields are accepted
as well, see `C148_no_colon_refuted` and `C148_bare_refuted`.) -/
theorem C148_only_sip_partial (U : Unicode) (r r' : Rd) (hr : r.Ok) (s : Sip) (h : parse U Sip.new r = (.ok (), s, r')) :
    ∃ l0 ls f fs d i, s.contents ++ s.payload ++ r'.all = r.all ∧ Section (s.payload ++ r'.all = []) s.contents (l0 :: ls) ∧ Says l0 f ∧ Told s f ∧ Heads ls fs ∧ Holds U s fs ∧
      (valuesOf fs (text "content-length")).head? = some d ∧ IsInteger d i ∧ -2 ^ 63 ≤ i ∧ i < 2 ^ 63 := by
  have hkeep := parse_keeps U Sip.new s r r' hr h
  rw [parse] at h
  rcases hl : lineLoop U (r.all.length + 2) true [] 0 Sip.new r with ⟨⟨b, o⟩ | e | _ | _, s1, r1⟩ <;> rw [hl] at h
  · obtain ⟨sec, ls, blank, rfl, rfl, hr1, hall, hsec, hrun⟩ := lineLoop_section U _ true [] Sip.new s1 r r1 b o hr hl
    simp only [List.nil_append] at h
    rcases hf : fillHeader U s1 with ⟨_ | e | _ | _, s2⟩
    · have hlen : ∃ i, getContentLength U s2.hdr = .ok i := by
        rcases finish_cases U sec blank s1 s2 r1 hr1 hf with ⟨i, _, _, hi, -⟩ | ⟨i, _, hi, -⟩ | ⟨e, -, h3⟩
        · exact ⟨i, hi⟩
        · exact ⟨i, hi⟩
        · rw [h3] at h; simp at h
      have hs : ∃ p, s = { s2 with contents := sec, payload := p } := by
        rcases finish_cases U sec blank s1 s2 r1 hr1 hf with ⟨_, k, _, -, -, h3, -⟩ | ⟨_, _, -, -, -, h3⟩ | ⟨e, -, h3⟩
        · rw [h3] at h
          simp only [Prod.mk.injEq, true_and] at h
          exact ⟨_, h.1.symm⟩
        · rw [h3] at h; simp at h
        · rw [h3] at h; simp at h
      obtain ⟨p, rfl⟩ := hs
      obtain ⟨i, hi⟩ := hlen
      have hrest : p ++ r'.all = blank ++ r1.all := by
        have h1 : sec ++ p ++ r'.all = sec ++ blank ++ r1.all := hkeep.trans hall
        rw [List.append_assoc, List.append_assoc] at h1
        exact List.append_cancel_left h1
      rw [← hrest] at hsec
      have hcl : text "content-length" = b!"content-length" := by decide +kernel
      have hac : Ascii (text "content-length") := by simp only [Ascii]; decide +kernel
      have hend : ∀ hd fs, s1.headers = some hd → Shows hd fs → Holds U s2 fs → ∃ d, (valuesOf fs (text "content-length")).head? = some d ∧ IsInteger d i ∧ -2 ^ 63 ≤ i ∧ i < 2 ^ 63 := by
        intro hd fs h1 h2 h3
        have h4 : atoi (getFirstHeader U s2.hdr (text "content-length")) = .ok i := by rw [hcl]; exact hi
        rw [h3.first _ hac] at h4
        cases hv : (valuesOf fs (text "content-length")).head? with
        | none => rw [hv] at h4; simp [atoi] at h4
        | some d =>
          rw [hv] at h4
          exact ⟨d, rfl, (atoi_iff d i).1 h4⟩
      cases ls with
      | nil =>
        simp only [runLines, Prod.mk.injEq, true_and] at hrun
        subst hrun
        obtain ⟨k1, -⟩ := fillHeader_holds U Sip.new s2 [] rfl [] shows_nil hf
        obtain ⟨d, h1, -⟩ := hend [] [] rfl shows_nil k1
        simp [valuesOf] at h1
      | cons l0 ls =>
        rw [runLines] at hrun
        rcases hp : parseLine U true l0 Sip.new with ⟨_ | e | _ | _, s0⟩ <;> rw [hp] at hrun
        · obtain ⟨f, f1, f2, f3, f4⟩ := firstLine_says U l0 Sip.new s0 hp
          obtain ⟨hd, last, fs, g1, g2, g3⟩ := runLines_heads U ls [] [] s0 s1 [] hrun (fun l hl => section_ne hsec l (by simp [hl])) (by rw [f2]; rfl)
            shows_nil .nil (by simp)
          obtain ⟨k1, c, q, fr, t, v, k2⟩ := fillHeader_holds U s1 s2 hd (by rw [g1]) fs g2 hf
          obtain ⟨d, d1, d2⟩ := hend hd fs (by rw [g1]) g2 k1
          refine ⟨l0, ls, f, fs, d, i, hkeep, hsec, f1, ?_, g3, ⟨k1.all, k1.first, k1.from_, k1.to_, k1.contact, k1.via, k1.cseq⟩, d1, d2⟩
          have h5 := f4 rfl
          rw [k2, g1]
          cases f with
          | request m uri v => exact h5
          | response v i p => exact h5
        all_goals simp at hrun
    all_goals (rw [finish, hf] at h; simp at h)
  all_goals simp at h

theorem stripped_unique {l x y : Bytes} (h1 : Stripped (· = 13) l x) (h2 : Stripped (· = 13) l y) : x = y := by
  have key : ∀ {x}, Stripped (· = 13) l x → trim (· == 13) l = x := by
    rintro x ⟨a, b, rfl, ha, hb, hx, hy⟩
    exact trim_mid (fun c hc => by simpa using ha c hc) (fun c hc => by simpa using hb c hc) (fun c hc => by simpa using hx c hc)
      (fun c hc => by simpa using hy c hc)
  rw [← key h1, ← key h2]

/-- C148: what comes first has to be a first line of SIP: a text whose first line says nothing in SIP is not accepted. -/
theorem C148_first_line (U : Unicode) (r : Rd) (hr : r.Ok) (l x rest : Bytes) (hl : (10 : UInt8) ∉ l) (hx : Stripped (· = 13) l x)
    (hw : r.all = l ++ 10 :: rest) (hno : ∀ f, ¬ Says x f) : (parse U Sip.new r).1 ≠ .ok () := by
  intro h
  rcases hp : parse U Sip.new r with ⟨a, s, r'⟩
  rw [hp] at h
  obtain rfl : a = .ok () := h
  obtain ⟨l0, ls, f, -, -, -, hall, hsec, hf, -⟩ := C148_only_sip_partial U r r' hr s hp
  rw [hw, List.append_assoc] at hall
  generalize hc : s.contents = c at hsec hall
  generalize hg : l0 :: ls = g at hsec
  generalize s.payload ++ r'.all = tail at hall hsec
  have : l0 = x := by
    cases hsec with
    | nil => simp at hg
    | last h0 h1 h2 h3 =>
      exfalso
      apply h1
      rw [h0, List.append_nil] at hall
      rw [hall]; simp
    | line h1 h2 h3 h4 =>
      obtain ⟨rfl, -⟩ := List.cons.inj hg
      rw [List.append_assoc, List.cons_append] at hall
      obtain ⟨rfl, -⟩ := first_unique hall h1 hl
      exact stripped_unique h2 hx
  exact hno f (this ▸ hf)

/-- An HTTP request is not accepted. -/
example (U : Unicode) : (parse U Sip.new ⟨[], [text "GET /index.html HTTP/1.1\r\nContent-Length: 0\r\n\r\n"], 4096, .eof⟩).1 ≠ .ok () := by
  refine C148_first_line U _ ⟨by decide, by simp⟩ (text "GET /index.html HTTP/1.1\r") (text "GET /index.html HTTP/1.1") (text "Content-Length: 0\r\n\r\n")
    (by decide +kernel) ⟨[], [13], by decide +kernel, by simp, by simp, ?_, ?_⟩ (by decide +kernel) ?_
  · have : (text "GET /index.html HTTP/1.1").head? = some 71 := by decide +kernel
    rw [this]; simp
  · have : (text "GET /index.html HTTP/1.1").getLast? = some 49 := by decide +kernel
    rw [this]; simp
  · intro f hf
    generalize hx : text "GET /index.html HTTP/1.1" = x at hf
    have e : text "GET /index.html HTTP/1.1" = text "GET" ++ 0x20 :: text "/index.html HTTP/1.1" := by decide +kernel
    cases hf with
    | request h1 h2 h3 h4 =>
      obtain ⟨rfl, -⟩ := first_unique (e.symm.trans hx) (by decide +kernel) h1
      obtain ⟨e, he, hs, -⟩ := h3 (by simp only [Ascii]; decide +kernel)
      have : ∀ e ∈ methods, (text "GET").map lowerAscii ≠ (text e.2).map lowerAscii := by decide +kernel
      exact this e he hs
    | response h1 h2 h3 h4 h5 h6 =>
      obtain ⟨rfl, -⟩ := first_unique (e.symm.trans hx) (by decide +kernel) h1
      revert h2
      decide +kernel

/-- A message that meets the hypothesis of `C148_only_sip_partial`. -/
example (U : Unicode) : ∃ m r', parse U Sip.new ⟨[], someWire (text "SIP/2.0 180 Please hold the line"), 4096, .eof⟩ = (.ok (), m, r') := by
  obtain ⟨m, r', h, -⟩ := C101_peer_response U 4096 (by decide) (someWire (text "SIP/2.0 180 Please hold the line")) (2, "SIP/2.0") (by decide) (text "180") 180
    (by simp only [IsDecimal]; decide +kernel) (by decide) (text "Please hold the line") (by decide +kernel) true true someFields someFields_ok
    (text "abcd") (by decide +kernel) (by decide +kernel)
  exact ⟨m, r', h⟩

/-! ### What else is accepted -/

/-- The end of `Parse` does not depend on the bytes of the header section. -/
theorem finish_apart (U : Unicode) (a b : Bytes) (s : Sip) (r t : Rd) (hr : r.Ok) (ht : t.Ok) (h : r.all = t.all) (hf : r.final = t.final)
    (blank : Bytes) : (finish U (a ++ blank) a.length s r).1 = (finish U (b ++ blank) b.length s t).1 ∧
      { (finish U (a ++ blank) a.length s r).2.1 with contents := [], payload := [] } =
        { (finish U (b ++ blank) b.length s t).2.1 with contents := [], payload := [] } := by
  rcases hh : fillHeader U s with ⟨_ | e | _ | _, s2⟩
  · rcases finish_cases U a blank s s2 r hr hh with ⟨i, k, r', a1, a2, a3, -⟩ | ⟨i, r', a1, a2, a3, a4⟩ | ⟨e, a1, a2⟩ <;>
    rcases finish_cases U b blank s s2 t ht hh with ⟨j, k', t', b1, b2, b3, -⟩ | ⟨j, t', b1, b2, b3, b4⟩ | ⟨e', b1, b2⟩ <;>
    rw [a1] at b1 <;> simp only [Res.ok.injEq, Res.err.injEq, reduceCtorEq] at b1
    · rw [a3, b3]; exact ⟨rfl, rfl⟩
    · rw [h, hf] at a2; subst b1
      rcases a2 with a2 | a2
      · exact absurd a2 b2
      · exact absurd a2 b3
    · rw [← h, ← hf] at b2; subst b1
      rcases b2 with b2 | b2
      · exact absurd b2 a2
      · exact absurd b2 a3
    · rw [a4, b4, hf]; exact ⟨rfl, rfl⟩
    · rw [a2, b2, b1]; exact ⟨rfl, rfl⟩
  all_goals (simp only [finish, hh]; exact ⟨trivial, trivial⟩)

/-- `Parse` on a header section and a blank line. -/
theorem parse_wire (U : Unicode) (s : Sip) (ls : List Bytes) (body : Bytes) (r : Rd) (hr : r.Ok) (h2 : 2 ≤ r.cap)
    (hls : ∀ l ∈ ls, (10 : UInt8) ∉ l ∧ trim crlf l ≠ [] ∧ l.length < r.cap) (hw : r.all = joinLines ls ++ 13 :: 10 :: body) :
    ∃ r1, (∀ s1, runLines U true (ls.map (trim crlf)) s = (.ok (), s1) → r1.Ok ∧ r1.all = body ∧ r1.final = r.final ∧
        parse U s r = finish U (joinLines ls ++ [13, 10]) (joinLines ls).length s1 r1) ∧
      (∀ e s1, runLines U true (ls.map (trim crlf)) s = (.err e, s1) → parse U s r = (.err e, s1, r1)) ∧
      (∀ s1, runLines U true (ls.map (trim crlf)) s = (.panic, s1) → parse U s r = (.panic, s1, r1)) ∧
      (∀ s1, runLines U true (ls.map (trim crlf)) s = (.diverge, s1) → parse U s r = (.diverge, s1, r1)) := by
  have hj := joinLines_length ls
  have hn : (joinLines ls).length ≤ r.all.length := by rw [hw]; simp
  rw [parse, show r.all.length + 2 = ls.length + ((r.all.length + 1 - ls.length) + 1) by omega]
  generalize r.all.length + 1 - ls.length = n
  obtain ⟨r1, g1, g2, g3, g4, g5, g6, g7⟩ := lineLoop_lines U (13 :: 10 :: body) ls (n + 1) true [] 0 s r hr hw hls
  rcases hrun : runLines U true (ls.map (trim crlf)) s with ⟨_ | e | _ | _, s1⟩
  · obtain ⟨k1, k2⟩ := g4 s1 hrun
    obtain ⟨r2, m1, m2, m3, m4, m5⟩ := Verif.Sips.lineLoop_blank U n (true && ls.isEmpty) ([] ++ joinLines ls) (0 + (joinLines ls).length) s1 r1 g1 [13] body (by simpa using k1)
      (by simp) (by simp [g2]; omega)
    refine ⟨r2, ?_, by simp, by simp, by simp⟩
    intro s1' h
    obtain rfl : s1 = s1' := by simpa using h
    refine ⟨m2, m1, by rw [m4, g3], ?_⟩
    rw [k2, m5]
    simp
  · refine ⟨r1, by simp, ?_, by simp, by simp⟩
    intro e' s1' h
    simp only [Prod.mk.injEq, Res.err.injEq] at h
    obtain ⟨rfl, rfl⟩ := h
    rw [g5 _ _ hrun]
  · refine ⟨r1, by simp, by simp, ?_, by simp⟩
    intro s1' h
    obtain rfl : s1 = s1' := by simpa using h
    rw [g6 _ hrun]
  · refine ⟨r1, by simp, by simp, by simp, ?_⟩
    intro s1' h
    obtain rfl : s1 = s1' := by simpa using h
    rw [g7 _ hrun]

/-- Lines of a header section without their LF: not blank, and short enough for the reader. -/
def Readable (size : Nat) (ls : List Bytes) : Prop := ∀ l ∈ ls, (10 : UInt8) ∉ l ∧ (∃ b ∈ l, b ≠ 13) ∧ l.length < size

/-- C148, refuted: a header line without a colon is not rejected.  Whatever else the message consists of, it is read as if the line
were not there. -/
theorem C148_no_colon_refuted (U : Unicode) (s : Sip) (l0 l : Bytes) (as bs : List Bytes) (body : Bytes) (r t : Rd) (hr : r.Ok) (ht : t.Ok)
    (hcap : r.cap = t.cap) (hfin : r.final = t.final) (hls : Readable r.cap (l0 :: as ++ l :: bs)) (hl : (0x3a : UInt8) ∉ l)
    (hb : ∀ c, l.head? = some c → c ≠ 0x20 ∧ c ≠ 9 ∧ c ≠ 13) (hw : r.all = lines (l0 :: as ++ l :: bs) ++ 13 :: 10 :: body)
    (hw' : t.all = lines (l0 :: as ++ bs) ++ 13 :: 10 :: body) :
    (parse U s r).1 = (parse U s t).1 ∧
      { (parse U s r).2.1 with contents := [], payload := [] } = { (parse U s t).2.1 with contents := [], payload := [] } := by
  have lk : ∀ ls, Readable r.cap ls → ∀ l ∈ ls, (10 : UInt8) ∉ l ∧ trim crlf l ≠ [] ∧ l.length < r.cap := by
    intro ls h m hm
    obtain ⟨h1, ⟨b, h2, h3⟩, h4⟩ := h m hm
    refine ⟨h1, fun hc => ?_, h4⟩
    have := (trim_eq_nil_iff crlf m).1 hc b h2
    simp only [crlf, Bool.or_eq_true, beq_iff_eq] at this
    rcases this with h | h
    · exact h3 h
    · exact h1 (h ▸ h2)
  have hls' : Readable t.cap (l0 :: as ++ bs) := by
    rw [← hcap]
    intro m hm
    refine hls m ?_
    simp only [List.cons_append, List.mem_cons, List.mem_append] at hm ⊢
    rcases hm with h | h | h
    · exact .inl h
    · exact .inr (.inl h)
    · exact .inr (.inr (.inr h))
  have h2 : 2 ≤ r.cap := by
    obtain ⟨-, ⟨b, hb, -⟩, h4⟩ := hls l0 (by simp)
    have := List.length_pos_of_mem hb
    omega
  have hjunk : ∀ s, parseHeader U (trim crlf l) s = (.ok (), s) := by
    intro s
    have hc : (0x3a : UInt8) ∉ trim crlf l := by
      obtain ⟨a, b, h1, -⟩ := trim_split crlf l
      intro h
      apply hl
      rw [h1]; simp [h]
    obtain ⟨h10, -, -⟩ := hls l (by simp)
    have hfront : ∀ c, (trim crlf l).head? = some c → c ≠ 0x20 ∧ c ≠ 9 := by
      intro c hc
      obtain ⟨a, b, h1, h2, -⟩ := trim_split crlf l
      cases a with
      | nil =>
        have : l.head? = some c := by rw [h1]; simp [hc]
        exact ⟨(hb c this).1, (hb c this).2.1⟩
      | cons x a =>
        exfalso
        have hx : l.head? = some x := by rw [h1]; simp
        have := h2 x (by simp)
        simp only [crlf, Bool.or_eq_true, beq_iff_eq] at this
        rcases this with rfl | rfl
        · exact (hb 13 hx).2.2 rfl
        · exact h10 (List.mem_of_head? hx)
    rw [parseHeader.eq_def]
    cases ht : trim crlf l with
    | nil => rfl
    | cons c m =>
      rw [ht] at hc hfront
      have := hfront c rfl
      simp only
      rw [if_neg (by simp [this]), index_not_mem hc, if_neg (by omega)]
      rfl
  have hrun : runLines U true ((l0 :: as ++ l :: bs).map (trim crlf)) s = runLines U true ((l0 :: as ++ bs).map (trim crlf)) s := by
    have key : ∀ (xs : List Bytes) (s : Sip), runLines U false (xs ++ trim crlf l :: bs.map (trim crlf)) s = runLines U false (xs ++ bs.map (trim crlf)) s := by
      intro xs
      induction xs with
      | nil =>
        intro s
        rw [List.nil_append, List.nil_append, runLines, show parseLine U false (trim crlf l) s = parseHeader U (trim crlf l) s from rfl, hjunk]
      | cons x xs ih =>
        intro s
        rw [List.cons_append, List.cons_append, runLines, runLines]
        rcases parseLine U false x s with ⟨_ | e | _ | _, s1⟩
        · exact ih s1
        all_goals rfl
    simp only [List.cons_append, List.map_cons, List.map_append]
    rw [runLines, runLines]
    rcases parseLine U true (trim crlf l0) s with ⟨_ | e | _ | _, s1⟩
    · exact key _ s1
    all_goals rfl
  obtain ⟨r1, a1, a2, a3, a4⟩ := parse_wire U s _ body r hr h2 (lk _ hls) hw
  obtain ⟨t1, b1, b2, b3, b4⟩ := parse_wire U s _ body t ht (hcap ▸ h2) (hcap ▸ lk _ (hcap ▸ hls')) hw'
  rw [hrun] at a1 a2 a3 a4
  rcases hx : runLines U true ((l0 :: as ++ bs).map (trim crlf)) s with ⟨_ | e | _ | _, s1⟩
  · obtain ⟨k1, k2, k3, k4⟩ := a1 s1 hx
    obtain ⟨m1, m2, m3, m4⟩ := b1 s1 hx
    rw [k4, m4]
    exact finish_apart U _ _ s1 r1 t1 k1 m1 (by rw [k2, m2]) (by rw [k3, m3, hfin]) [13, 10]
  · rw [a2 _ _ hx, b2 _ _ hx]; exact ⟨rfl, rfl⟩
  · rw [a3 _ hx, b3 _ hx]; exact ⟨rfl, rfl⟩
  · rw [a4 _ hx, b4 _ hx]; exact ⟨rfl, rfl⟩

/-- A content length of zero. -/
def noBody : HField := { name := text "Content-Length", pre := 0, post := 1, value := text "0", trail := 0, cr := true, conts := [] }

theorem noBody_ok (size : Nat) (h : 32 ≤ size) : Acceptable size [noBody] := by
  refine ⟨?_, ?_, ?_, text "0", 0, by decide +kernel, by simp only [IsDecimal]; decide +kernel, by decide⟩
  · intro f hf
    obtain rfl := List.mem_singleton.1 hf
    have h1 : noBody.name ≠ [] ∧ ∀ b ∈ noBody.name, 0x21 ≤ b ∧ b ≤ 0x7e ∧ b ≠ 0x3a := by decide +kernel
    have h2 : (∀ b ∈ noBody.value, b ≠ 13 ∧ b ≠ 10) ∧ noBody.value.head? ≠ some 0x20 ∧ noBody.value.getLast? ≠ some 0x20 := by decide +kernel
    exact ⟨h1, ⟨h2.1, h2.2.1, h2.2.2⟩, fun h => absurd rfl h, by simp [noBody]⟩
  · have : ∀ l ∈ fieldLines [noBody], l.length < 32 := by decide +kernel
    exact fun l hl => Nat.lt_of_lt_of_le (this l hl) h
  · have : ∀ n ∈ [text "from", text "to", text "contact", text "via"], (fieldValues [noBody] n).head? = none := by decide +kernel
    intro n hn v hv
    rw [this n hn] at hv
    simp at hv

/-- C148, refuted: a response with any decimal number for a status code, and a request, are accepted without any of the fields that RFC
3261 demands: a content length is enough. -/
theorem C148_bare_refuted (U : Unicode) (size : Nat) (hsize : 64 ≤ size) :
    (∀ d code, IsDecimal d code → code < 2 ^ 63 → ∀ chunks, chunks.flatten = text "SIP/2.0 " ++ d ++ text " OK\r\nContent-Length: 0\r\n\r\n" →
      d.length + 12 < size →
      ∃ m r', parse U Sip.new ⟨[], chunks, size, .eof⟩ = (.ok (), m, r') ∧ m.isResponse = true ∧ m.responseCode = code ∧
        ∀ n ∈ [text "from", text "to", text "via", text "cseq", text "call-id", text "max-forwards"], getHeader U m.hdr n = []) ∧
    (∀ e ∈ methods, ∀ chunks, chunks.flatten = text e.2 ++ text " sip:a@b SIP/2.0\r\nContent-Length: 0\r\n\r\n" →
      ∃ m r', parse U Sip.new ⟨[], chunks, size, .eof⟩ = (.ok (), m, r') ∧ m.isResponse = false ∧ m.method = e.1 ∧
        ∀ n ∈ [text "from", text "to", text "via", text "cseq", text "call-id", text "max-forwards"], getHeader U m.hdr n = []) := by
  have hnone : ∀ n ∈ [text "from", text "to", text "via", text "cseq", text "call-id", text "max-forwards"],
      (∀ b ∈ n, b < 0x80) ∧ fieldValues [noBody] n = [] := by decide +kernel
  refine ⟨fun d code hd hcode chunks hw hlen => ?_, fun e he chunks hw => ?_⟩
  · obtain ⟨m, r', g1, g2, g3, -, -, g4⟩ := C101_peer_response U size (by omega) chunks (2, "SIP/2.0") (by simp [versions]) d code hd hcode (text "OK")
      (by decide +kernel) true true [noBody] (noBody_ok size (by omega)) [] (by rw [show (text "OK").length = 2 by decide +kernel]; omega) (by
        rw [hw]
        have e1 : text "SIP/2.0 " = text "SIP/2.0" ++ [0x20] := by decide +kernel
        have e2 : text " OK\r\nContent-Length: 0\r\n\r\n" = 0x20 :: text "OK" ++ [13, 10] ++ lines (fieldLines [noBody]) ++ [13, 10] := by decide +kernel
        rw [e1, e2]
        simp [lines, lineEnd])
    exact ⟨m, r', g1, g2, g3, fun n hn => by rw [g4.all n (hnone n hn).1, (hnone n hn).2]⟩
  · have hm : ∀ e ∈ methods, (text e.2).length ≤ 9 ∧ ∀ b ∈ text e.2, b < 0x80 := by decide +kernel
    obtain ⟨m, r', g1, g2, g3, -, -, g4⟩ := C101_peer_request U size (by omega) chunks e he (text e.2) rfl (hm e he).2 ⟨text "sip", text "a", text "b", [], []⟩
      (text "sip:a@b") (by decide +kernel) (by decide +kernel) (2, "SIP/2.0") (by simp [versions]) (text "SIP/2.0") rfl (by decide +kernel) true true
      [noBody] (noBody_ok size (by omega)) [] (by
        rw [show (text "SIP/2.0").length = 7 by decide +kernel, show (text "sip:a@b").length = 7 by decide +kernel]
        have := (hm e he).1
        omega) (by
        rw [hw]
        have e2 : text " sip:a@b SIP/2.0\r\nContent-Length: 0\r\n\r\n" = 0x20 :: (text "sip:a@b" ++ 0x20 :: text "SIP/2.0") ++ [13, 10] ++
          lines (fieldLines [noBody]) ++ [13, 10] := by decide +kernel
        rw [e2]
        simp [lines, lineEnd])
    exact ⟨m, r', g1, g2, g3, fun n hn => by rw [g4.all n (hnone n hn).1, (hnone n hn).2]⟩

/-- A line of prose in the header section. -/
example (U : Unicode) (s : Sip) : (parse U s ⟨[], [text "ACK sip:a@b SIP/2.0\r\nthis is no header\r\nL: 0\r\n\r\n"], 4096, .eof⟩).1 =
    (parse U s ⟨[], [text "ACK sip:a@b SIP/2.0\r\nL: 0\r\n\r\n"], 4096, .eof⟩).1 :=
  (C148_no_colon_refuted U s (text "ACK sip:a@b SIP/2.0\r") (text "this is no header\r") [] [text "L: 0\r"] []
    ⟨[], [text "ACK sip:a@b SIP/2.0\r\nthis is no header\r\nL: 0\r\n\r\n"], 4096, .eof⟩ ⟨[], [text "ACK sip:a@b SIP/2.0\r\nL: 0\r\n\r\n"], 4096, .eof⟩
    ⟨by decide, by simp⟩ ⟨by decide, by simp⟩ rfl rfl (by simp only [Readable]; decide +kernel) (by decide +kernel)
    (by
      have : (text "this is no header\r").head? = some 116 := by decide +kernel
      rw [this]; simp) (by decide +kernel) (by decide +kernel)).1

example (U : Unicode) : ∃ m r', parse U Sip.new ⟨[], [text "SIP/2.0 123456 OK\r\nContent-Length: 0\r\n\r\n"], 64, .eof⟩ = (.ok (), m, r') ∧
    m.isResponse = true ∧ m.responseCode = 123456 ∧
    ∀ n ∈ [text "from", text "to", text "via", text "cseq", text "call-id", text "max-forwards"], getHeader U m.hdr n = [] :=
  (C148_bare_refuted U 64 (by decide)).1 (text "123456") 123456 (by simp only [IsDecimal]; decide +kernel) (by decide) _ (by decide +kernel) (by decide +kernel)

end Verif.Props
