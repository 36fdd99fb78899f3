import Verif.Lemmas.SipsWhole
import Verif.Props.Sips
/-!
# Properties of package `sips`: whole messages (C78 to C84)

A reader `⟨buffered, chunks, size, end⟩` is a `bufio.Reader` with a buffer of `size` bytes over an input that arrives in
the given chunks.
-/
namespace Verif.Props
open Verif.Sips Verif.Str Verif.Spec.Sips

/-! ## C78 -/

theorem version2 (U : Unicode) : getSIPVersion U b!"SIP/2.0" = .ok 2 :=
  (C71_versions U (2, "SIP/2.0") (by decide)).2 _ (by decide) (by simp only [SameText]; decide +kernel)

/-- C78 fails: a first header line that begins with a space or a tab makes `Parse` panic, whatever follows. -/
theorem C78_fold_panics_refuted (U : Unicode) (c : UInt8) (hc : c = 9 ∨ c = 0x20) (t rest : Bytes) (ht : (10 : UInt8) ∉ t)
    (hlen : t.length < 4000) :
    (parseBytes U Sip.new (text "SIP/2.0 200 OK\r\n" ++ c :: (t ++ 10 :: rest))).1 = .panic := by
  obtain ⟨hr, hall, hcap, hfin⟩ := ofBytes_ok (text "SIP/2.0 200 OK\r\n" ++ c :: (t ++ 10 :: rest))
  generalize hw : text "SIP/2.0 200 OK\r\n" ++ c :: (t ++ 10 :: rest) = w at *
  have hw' : w = joinLines [b!"SIP/2.0 200 OK\r", c :: t] ++ rest := by
    rw [← hw, show text "SIP/2.0 200 OK\r\n" = b!"SIP/2.0 200 OK\r" ++ [10] from by decide +kernel]
    simp
  have hc10 : c ≠ 10 := by rcases hc with rfl | rfl <;> decide
  have hcut : crlf c = false := by rcases hc with rfl | rfl <;> rfl
  obtain ⟨a, b, h1, h2, h3⟩ := trim_split crlf (c :: t)
  have hhead : ∃ t', trim crlf (c :: t) = c :: t' := by
    cases a with
    | nil =>
      cases htr : trim crlf (c :: t) with
      | nil =>
        rw [htr] at h1
        have := h3 c (by simp at h1; rw [← h1]; simp)
        rw [hcut] at this; simp at this
      | cons x y =>
        rw [htr] at h1
        simp at h1
        exact ⟨y, by rw [h1.1]⟩
    | cons x a =>
      have := h2 x (by simp)
      simp at h1
      rw [← h1.1, hcut] at this; simp at this
  obtain ⟨t', ht'⟩ := hhead
  obtain ⟨r1, g1, g2, g3, -, -, g4, -⟩ := lineLoop_lines U rest [b!"SIP/2.0 200 OK\r", c :: t] ((Rd.ofBytes w).all.length) true [] 0
    Sip.new (Rd.ofBytes w) hr (by rw [hall, hw']) (by
      intro l hl
      rw [hcap]
      simp only [List.mem_cons, List.not_mem_nil, or_false] at hl
      rcases hl with rfl | rfl
      · exact ⟨by decide, by decide, by decide⟩
      · refine ⟨?_, by rw [ht']; simp, by simp; omega⟩
        simp only [List.mem_cons, not_or]
        exact ⟨fun h => hc10 h.symm, ht⟩)
  have hfirst : parseFirstLine U b!"SIP/2.0 200 OK" Sip.new =
      (.ok (), { Sip.new with isResponse := true, version := 2, responseCode := 200, responseStatus := b!"OK" }) :=
    parseFirstLine_response U Sip.new b!"SIP/2.0" b!"200" b!"OK" 200 2 (by decide) (by decide) (by decide) (version2 U) (by decide)
  have hrun : runLines U true ([b!"SIP/2.0 200 OK\r", c :: t].map (trim crlf)) Sip.new =
      (.panic, { Sip.new with isResponse := true, version := 2, responseCode := 200, responseStatus := b!"OK" }) := by
    have e1 : trim crlf b!"SIP/2.0 200 OK\r" = b!"SIP/2.0 200 OK" := by decide
    have hp : parseLine U true b!"SIP/2.0 200 OK" Sip.new = _ := hfirst
    rw [List.map_cons, List.map_cons, List.map_nil, e1, ht', runLines, hp]
    simp only
    have hq : parseLine U false (c :: t') { Sip.new with isResponse := true, version := 2, responseCode := 200, responseStatus := b!"OK" } =
        (.panic, { Sip.new with isResponse := true, version := 2, responseCode := 200, responseStatus := b!"OK" }) := by
      show parseHeader U (c :: t') _ = _
      rw [parseHeader.eq_def]
      simp only
      rw [if_pos hc]
      rfl
    rw [runLines, hq]
  have := g4 _ hrun
  rw [parseBytes, parse]
  rw [show (Rd.ofBytes w).all.length + 2 = [b!"SIP/2.0 200 OK\r", c :: t].length + (Rd.ofBytes w).all.length by simp; omega, this]

example (U : Unicode) : (parseBytes U Sip.new (text "SIP/2.0 200 OK\r\n" ++ 0x20 :: (text "x: y\r" ++ 10 :: text "\r\n"))).1 = .panic :=
  C78_fold_panics_refuted U 0x20 (.inr rfl) _ _ (by decide +kernel) (by decide +kernel)

/-- C78 (partial): messages, of any bytes, in which every `=` of the header section is directly followed by a value and every
continuation line comes after a header line are parsed or rejected, never a panic, for every fragmentation; the body is
arbitrary.  The header section ends with a blank line or with the input. -/
theorem C78_parse_returns_partial (U : Unicode) (size : Nat) (hsize : 0 < size) (fin : Err) (chunks : List Bytes) (l0 : Bytes)
    (ls : List Bytes) (tail : Bytes) (hall : chunks.flatten = lines (l0 :: ls) ++ tail)
    (htail : (∃ cr body, tail = cr ++ 10 :: body ∧ ∀ b ∈ cr, b = 13) ∨
      ((10 : UInt8) ∉ tail ∧ ValuesPresent tail))
    (hls : ∀ l ∈ l0 :: ls, (10 : UInt8) ∉ l ∧ ValuesPresent l) (hfold : FoldsOk (ls ++ [tail])) :
    (∃ e, (parse U Sip.new ⟨[], chunks, size, fin⟩).1 = .err e) ∨ (parse U Sip.new ⟨[], chunks, size, fin⟩).1 = .ok () :=
  parse_safe U Sip.new ⟨⟨[], rfl⟩, by simp [Sip.new, Sip.hdr], by simp⟩ ⟨[], chunks, size, fin⟩ ⟨hsize, by simp⟩ l0 ls tail
    (by rw [Rd.all, List.nil_append]; exact hall) htail hls hfold

example (U : Unicode) : (∃ e, (parse U Sip.new ⟨[], [text "BYE sip:a@b SIP/2.0\r\nfr", text "om: <sip:c@d>;tag=1\r\n\r\nab="], 4096, .eof⟩).1 = .err e) ∨
    (parse U Sip.new ⟨[], [text "BYE sip:a@b SIP/2.0\r\nfr", text "om: <sip:c@d>;tag=1\r\n\r\nab="], 4096, .eof⟩).1 = .ok () :=
  C78_parse_returns_partial U 4096 (by decide) .eof _ (text "BYE sip:a@b SIP/2.0\r") [text "from: <sip:c@d>;tag=1\r"]
    (text "\r\nab=") (by decide +kernel) (.inl ⟨[13], text "ab=", by decide +kernel, by simp⟩)
    (by
      intro l hl
      simp only [List.mem_cons, List.not_mem_nil, or_false] at hl
      rcases hl with rfl | rfl
      · exact ⟨by decide +kernel, valuesPresent_of (by decide +kernel)⟩
      · exact ⟨by decide +kernel, valuesPresent_of (by decide +kernel)⟩)
    ⟨by
      rintro ⟨cs, c, t, h1, h2, h3⟩
      have hh : (text "from: <sip:c@d>;tag=1\r").head? = some 0x66 := by decide +kernel
      rw [h1] at hh
      cases cs with
      | nil => simp at hh; subst hh; rcases h3 with h3 | h3 <;> simp at h3
      | cons x cs => simp at hh; subst hh; simpa using h2 0x66 (by simp), .inl (by decide +kernel)⟩

/-! ## C79 -/

/-- C79 (partial): a header is found under its name in any letter case. -/
theorem C79_lookup_partial (U : Unicode) (h : Hdr) (hd : (h.map Prod.fst).Nodup) (k n v : Bytes) (vs : List Bytes)
    (hk : k.map lowerAscii = k) (hn : ∀ b ∈ n, b < 0x80) (hs : SameText n k) (hm : (k, v :: vs) ∈ h) :
    getFirstHeader U h n = v ∧ getHeader U h n = v :: vs := by
  have hl : toLower U n = k := by rw [toLower_ascii U hn, hs, hk]
  have hg := mem_of_mget hd hm
  simp only [getFirstHeader, getHeader, hl, Sips.vals, hg, Option.isSome_some, if_true, Option.getD_some]
  exact ⟨trivial, by simp⟩

/-- The header map of the examples. -/
def someHdr : Hdr := [(text "l", [text "4"]), (text "call-id", [text "a84b4c76e66710", text "x"]), (text "cseq", [text "1 BYE"])]

theorem someHdr_distinct : (someHdr.map Prod.fst).Nodup := by decide +kernel

example (U : Unicode) : getFirstHeader U someHdr (text "Call-ID") = text "a84b4c76e66710" ∧
    getHeader U someHdr (text "Call-ID") = [text "a84b4c76e66710", text "x"] :=
  C79_lookup_partial U someHdr someHdr_distinct (text "call-id") _ _ _ (by decide +kernel) (by decide +kernel)
    (by simp only [SameText]; decide +kernel) (by decide +kernel)

/-- C79: names that differ in letter case only find the same values, whatever is stored. -/
theorem C79_any_case (U : Unicode) (h : Hdr) (n m : Bytes) (hn : ∀ b ∈ n, b < 0x80) (hm : ∀ b ∈ m, b < 0x80) (hs : SameText n m) :
    getFirstHeader U h n = getFirstHeader U h m ∧ getHeader U h n = getHeader U h m := by
  have hl : toLower U n = toLower U m := by rw [toLower_ascii U hn, toLower_ascii U hm, hs]
  simp only [getFirstHeader, getHeader, hl]
  exact ⟨trivial, trivial⟩

example (U : Unicode) : getFirstHeader U someHdr (text "CSEQ") = getFirstHeader U someHdr (text "cSeq") ∧
    getHeader U someHdr (text "CSEQ") = getHeader U someHdr (text "cSeq") :=
  C79_any_case U _ _ _ (by decide +kernel) (by decide +kernel) (by simp only [SameText]; decide +kernel)

/-- C79 fails for every compact form and every header map without the long form: the value is not found. -/
theorem C79_compact_refuted (U : Unicode) (h : Hdr) (e : String × String) (he : e ∈ compact)
    (hno : ∀ x ∈ h, x.1 ≠ text e.1) : getFirstHeader U h (text e.1) = [] ∧ getHeader U h (text e.1) = [] := by
  have hl : ∀ e ∈ compact, ∀ b ∈ text e.1, b < 0x80 ∧ ¬ (0x41 ≤ b ∧ b ≤ 0x5a) := by decide +kernel
  have hm : mget h (toLower U (text e.1)) = none := by
    rw [toLower_keep U (hl e he)]
    cases hg : mget h (text e.1) with
    | none => rfl
    | some v => exact absurd rfl (hno _ (mget_mem hg))
  simp only [getFirstHeader, getHeader, hm, Option.isSome_none, Bool.false_eq_true, if_false]
  exact ⟨trivial, trivial⟩

example (U : Unicode) : getFirstHeader U someHdr (text "content-length") = [] ∧ getHeader U someHdr (text "content-length") = [] :=
  C79_compact_refuted U someHdr ("content-length", "l") (by decide) (by decide +kernel)
/-- ... although the compact form is there. -/
example : (text "l", [text "4"]) ∈ someHdr := by decide +kernel

/-- C79, what works: the compact form is used when the long form is stored with an empty list of values. -/
theorem C79_compact_partial (U : Unicode) (h : Hdr) (hd : (h.map Prod.fst).Nodup) (e : String × String) (he : e ∈ compact)
    (v : Bytes) (vs : List Bytes) (h1 : (text e.1, []) ∈ h) (h2 : (text e.2, v :: vs) ∈ h) :
    getFirstHeader U h (text e.1) = v ∧ getHeader U h (text e.1) = v :: vs := by
  have hl : ∀ e ∈ compact, (∀ b ∈ text e.1, b < 0x80 ∧ ¬ (0x41 ≤ b ∧ b ≤ 0x5a)) ∧ compactOf (text e.1) = text e.2 := by
    decide +kernel
  have g1 := mem_of_mget hd h1
  have g2 := mem_of_mget hd h2
  simp only [getFirstHeader, getHeader, toLower_keep U (hl e he).1, Sips.vals, g1, g2, (hl e he).2, Option.isSome_some, if_true,
    Option.getD_some]
  exact ⟨trivial, by simp⟩

example (U : Unicode) : getFirstHeader U ((text "content-length", []) :: someHdr) (text "content-length") = text "4" ∧
    getHeader U ((text "content-length", []) :: someHdr) (text "content-length") = [text "4"] :=
  C79_compact_partial U _ (by decide +kernel) ("content-length", "l") (by decide) _ _ (by decide +kernel) (by decide +kernel)

/-! ## C82 -/

/-- C82: outcome, header section and everything derived from it are the same for every fragmentation of the input; only
the payload may differ (see C81). -/
theorem C82_fragmentation (U : Unicode) (s : Sip) (size : Nat) (hsize : 0 < size) (fin : Err) (a b : List Bytes)
    (h : a.flatten = b.flatten) :
    (parse U s ⟨[], a, size, fin⟩).1 = (parse U s ⟨[], b, size, fin⟩).1 ∧
    { (parse U s ⟨[], a, size, fin⟩).2.1 with payload := [] } = { (parse U s ⟨[], b, size, fin⟩).2.1 with payload := [] } :=
  parse_same U s _ _ ⟨hsize, by simp⟩ ⟨hsize, by simp⟩ ⟨by simpa [Rd.all] using h, rfl, rfl⟩

example (U : Unicode) (s : Sip) :
    (parse U s ⟨[], [text "BYE sip:a@b SIP/2.0\r\n", text "content-length: 0\r\n\r\n"], 4096, .eof⟩).1 =
    (parse U s ⟨[], [text "B", text "YE sip:a@b SIP/2.0\r\nconte", text "nt-length: 0\r\n\r\n"], 4096, .eof⟩).1 :=
  (C82_fragmentation U s 4096 (by decide) .eof _ _ (by decide +kernel)).1

/-! ## C81 -/

/-- C81 (partial), exactly: after a successful `Parse`, the payload is the blank line followed by the bytes behind it.  The
blank line counts towards the content length; the bytes that arrive together with the last one needed are taken too (at
most 4095 more); an input that ends early is accepted.  The other bytes stay in the reader. -/
theorem C81_payload_partial (U : Unicode) (s s' : Sip) (r' : Rd) (size : Nat) (hsize : 0 < size) (fin : Err) (chunks : List Bytes)
    (ls : List Bytes) (cr rest : Bytes) (hall : chunks.flatten = lines ls ++ (cr ++ 10 :: rest))
    (hls : ∀ l ∈ ls, HeadLine size l) (hcr : ∀ b ∈ cr, b = 13) (hcap : cr.length < size)
    (hp : parse U s ⟨[], chunks, size, fin⟩ = (.ok (), s', r')) :
    ∃ (n : Int) (k : Nat), getContentLength U s'.hdr = .ok n ∧ s'.contents = lines ls ∧ s'.payload = cr ++ 10 :: rest.take k ∧
      r'.all = rest.drop k ∧ k ≤ rest.length ∧ (n ≤ cr.length + 1 → k = 0) ∧
      (cr.length + 1 < n → (k : Int) < n - (cr.length + 1) + 4096) ∧
      (n - (cr.length + 1) ≤ rest.length → n - (cr.length + 1) ≤ k) ∧
      (¬ n - (cr.length + 1) ≤ rest.length → k = rest.length) := by
  have hr : (⟨[], chunks, size, fin⟩ : Rd).Ok := ⟨hsize, by simp⟩
  have hall' : (⟨[], chunks, size, fin⟩ : Rd).all = joinLines ls ++ (cr ++ 10 :: rest) := by
    rw [Rd.all, List.nil_append]; exact hall
  have hls' : ∀ l ∈ ls, (10 : UInt8) ∉ l ∧ trim crlf l ≠ [] ∧ l.length < size := by
    intro l hl
    refine ⟨(hls l hl).noLf, fun h => ?_, (hls l hl).short⟩
    obtain ⟨b, hb, hne⟩ := (hls l hl).notBlank
    have := (trim_eq_nil_iff crlf l).1 h b hb
    simp only [crlf, Bool.or_eq_true, beq_iff_eq] at this
    rcases this with h1 | h1
    · exact hne h1
    · exact (hls l hl).noLf (h1 ▸ hb)
  obtain ⟨s1, hrun⟩ := parse_blank_inv U s s' _ r' hr ls cr rest hall' hls' hp
  obtain ⟨r1, g1, g2, -, -, g5⟩ := parse_blank U s s1 s _ hr ls cr rest hall' hcr hcap hls' hrun
  rw [g5] at hp
  rcases hf : fillHeader U s1 with ⟨_ | e | _ | _, s2⟩
  · rcases finish_cases U (joinLines ls) (cr ++ [10]) s1 s2 r1 g1 hf with
      ⟨n, k, r2, k1, k2, k3, k4, k5, k6, k7, k8, k9⟩ | ⟨n, r2, k1, k2, k3, k4⟩ | ⟨e, k1, k2⟩
    · rw [k3] at hp
      obtain ⟨-, hp⟩ := Prod.mk.inj hp
      obtain ⟨rfl, rfl⟩ := Prod.mk.inj hp
      rw [g2] at k4 k5 k7 k8
      simp only [List.length_append, List.length_cons, List.length_nil] at k6 k7 k8 k9
      refine ⟨n, k, k1, rfl, by simp [g2], k4, k5, ?_, ?_, ?_, ?_⟩
      · intro h; exact k6 (by omega)
      · intro h; have := k9 (by omega); omega
      · intro h; have := k7 (by omega); omega
      · intro h; exact k8 (by omega)
    · rw [k4] at hp; simp at hp
    · rw [k2] at hp; simp at hp
  all_goals (rw [finish, hf] at hp; simp at hp)

/-- C81 fails for every message: the payload begins with the blank line, so it is no part of the body unless the body itself
begins with a line end. -/
theorem C81_payload_refuted (U : Unicode) (s s' : Sip) (r' : Rd) (size : Nat) (hsize : 0 < size) (fin : Err) (chunks : List Bytes)
    (ls : List Bytes) (cr rest : Bytes) (hall : chunks.flatten = lines ls ++ (cr ++ 10 :: rest))
    (hls : ∀ l ∈ ls, HeadLine size l) (hcr : ∀ b ∈ cr, b = 13) (hcap : cr.length < size)
    (hp : parse U s ⟨[], chunks, size, fin⟩ = (.ok (), s', r')) (hb : ∀ b, rest.head? = some b → b ≠ 13 ∧ b ≠ 10) :
    ∀ n, s'.payload ≠ rest.take n := by
  obtain ⟨n, k, -, -, h, -⟩ := C81_payload_partial U s s' r' size hsize fin chunks ls cr rest hall hls hcr hcap hp
  intro n' hn
  rw [h] at hn
  cases rest with
  | nil => cases cr <;> simp at hn
  | cons b rest =>
    obtain ⟨b1, b2⟩ := hb b rfl
    cases n' with
    | zero => cases cr <;> simp at hn
    | succ n' =>
      rw [List.take_succ_cons] at hn
      cases cr with
      | nil => simp at hn; exact b2 hn.1.symm
      | cons c cr =>
        have := hcr c (by simp)
        simp at hn
        exact b1 (hn.1.symm.trans this)

/-- A Unicode table for the examples. -/
def plainU : Unicode := ⟨id, id, id⟩

/-- The message of the examples. -/
def someMsg (body : Bytes) : Bytes := text "BYE sip:a@b SIP/2.0\r\ncontent-length: 4\r\n\r\n" ++ body

/-- A message of four body bytes in one piece: the payload is the blank line and the body, and the next message is
swallowed too. -/
example : (parse plainU Sip.new ⟨[], [someMsg (text "abcd")], 4096, .eof⟩).2.1.payload = text "\r\nabcd" ∧
    (parse plainU Sip.new ⟨[], [someMsg (text "abcdSIP/2.0 200")], 4096, .eof⟩).2.1.payload = text "\r\nabcdSIP/2.0 200" := by
  decide +kernel
/-- The same message in two pieces: two bytes of the body are lost. -/
example : (parse plainU Sip.new ⟨[], [someMsg (text "ab"), text "cd"], 4096, .eof⟩).2.1.payload = text "\r\nab" := by decide +kernel

theorem someMsg_lines : ∀ l ∈ [text "BYE sip:a@b SIP/2.0\r", text "content-length: 4\r"], HeadLine 4096 l := by
  have : ∀ l ∈ [text "BYE sip:a@b SIP/2.0\r", text "content-length: 4\r"], (10 : UInt8) ∉ l ∧ (∃ b ∈ l, b ≠ 13) ∧ l.length < 4096 := by
    decide +kernel
  intro l hl
  obtain ⟨h1, h2, h3⟩ := this l hl
  exact ⟨h1, h2, h3⟩

example : ∀ n, (parse plainU Sip.new ⟨[], [someMsg (text "abcd")], 4096, .eof⟩).2.1.payload ≠ (text "abcd").take n :=
  C81_payload_refuted plainU Sip.new _ _ 4096 (by decide) .eof [someMsg (text "abcd")]
    [text "BYE sip:a@b SIP/2.0\r", text "content-length: 4\r"] [13] (text "abcd") (by decide +kernel) someMsg_lines (by simp) (by simp)
    (by
      have h : (parse plainU Sip.new ⟨[], [someMsg (text "abcd")], 4096, .eof⟩).1 = .ok () := by decide +kernel
      rw [← h])
    (by decide +kernel)

/-! ## C83 -/

theorem getFirst_set (U : Unicode) (h : Hdr) (n v m : Bytes) : getFirstHeader U (setFirstHeader U h n v) m =
    if toLower U m = toLower U n then v
    else if (mget h (toLower U m)).isSome ∧ Sips.vals h (toLower U m) = [] ∧ compactOf (toLower U m) = toLower U n then v
    else getFirstHeader U h m := by
  simp only [getFirstHeader, setFirstHeader, Sips.vals, mget_mset]
  by_cases h1 : toLower U m = toLower U n
  · simp [h1]
  · simp only [h1, if_false]
    have ho : mget h (toLower U m) = none ∨ mget h (toLower U m) = some [] ∨ ∃ x l, mget h (toLower U m) = some (x :: l) := by
      rcases mget h (toLower U m) with _ | _ | ⟨x, l⟩ <;> simp
    rcases ho with ho | ho | ⟨x, l, ho⟩
    · simp [ho]
    · by_cases h2 : compactOf (toLower U m) = toLower U n
      · simp [ho, h2]
      · simp [ho, h2]
    · simp [ho]

/-- C83: after `SetFirstHeader(n, v)`, `GetFirstHeader` returns `v` for every spelling of `n` and what it returned before
for every other name.  (Exception: a long name stored with an empty list of values, whose compact form is `n`.) -/
theorem C83_set_get (U : Unicode) (h : Hdr) (n v m : Bytes) (hn : ∀ b ∈ n, b < 0x80) (hm : ∀ b ∈ m, b < 0x80) :
    (SameText m n → getFirstHeader U (setFirstHeader U h n v) m = v) ∧
    (¬ SameText m n → n ≠ [] → (∀ e ∈ compact, ¬ (SameText m (text e.1) ∧ SameText n (text e.2))) →
      getFirstHeader U (setFirstHeader U h n v) m = getFirstHeader U h m) ∧
    (¬ SameText m n → (∀ e ∈ h, e.2 ≠ []) → getFirstHeader U (setFirstHeader U h n v) m = getFirstHeader U h m) := by
  rw [getFirst_set, toLower_ascii U hn, toLower_ascii U hm]
  refine ⟨fun hs => if_pos hs, fun hs hnil hc => ?_, fun hs hne => ?_⟩
  · have hs : ¬ m.map lowerAscii = n.map lowerAscii := hs
    rw [if_neg hs, if_neg]
    rintro ⟨-, -, hx⟩
    cases hg : mget compactForms (m.map lowerAscii) with
    | none =>
      rw [compactOf, hg, Option.getD_none] at hx
      cases n with
      | nil => exact hnil rfl
      | cons b n => simp at hx
    | some c =>
      have htab : ∀ x ∈ compactForms, ∃ e ∈ compact, text e.1 = x.1 ∧ text e.2 = x.2 := by decide +kernel
      have hlow : ∀ e ∈ compact, (text e.1).map lowerAscii = text e.1 ∧ (text e.2).map lowerAscii = text e.2 := by decide +kernel
      obtain ⟨e, he, e1, e2⟩ := htab _ (mget_mem hg)
      rw [compactOf, hg, Option.getD_some] at hx
      refine hc e he ⟨?_, ?_⟩
      · rw [SameText, (hlow e he).1, e1]
      · rw [SameText, (hlow e he).2, e2, ← hx]
  · have hs : ¬ m.map lowerAscii = n.map lowerAscii := hs
    rw [if_neg hs, if_neg]
    rintro ⟨h1, h2, -⟩
    cases hg : mget h (m.map lowerAscii) with
    | none => rw [hg] at h1; simp at h1
    | some l =>
      have := hne _ (mget_mem hg)
      rw [Sips.vals, hg] at h2
      exact this h2

example (U : Unicode) : getFirstHeader U (setFirstHeader U someHdr (text "Subject") (text "hi")) (text "SUBJECT") = text "hi" ∧
    getFirstHeader U (setFirstHeader U someHdr (text "Subject") (text "hi")) (text "call-id") =
      getFirstHeader U someHdr (text "call-id") :=
  ⟨(C83_set_get U someHdr _ _ _ (by decide +kernel) (by decide +kernel)).1 (by simp only [SameText]; decide +kernel),
    (C83_set_get U someHdr _ _ _ (by decide +kernel) (by decide +kernel)).2.2 (by simp only [SameText]; decide +kernel)
      (by decide +kernel)⟩

theorem set_nonempty (U : Unicode) {h : Hdr} (hne : ∀ e ∈ h, e.2 ≠ []) (n v : Bytes) : ∀ e ∈ setFirstHeader U h n v, e.2 ≠ [] := by
  intro e he
  rcases mem_mset he with rfl | he
  · simp
  · exact hne e he

/-- C83: `CopyFrom` gives exactly the named headers the first value they have in the source. -/
theorem C83_copy (U : Unicode) (src : Hdr) (ns : List Bytes) (hns : ∀ n ∈ ns, ∀ b ∈ n, b < 0x80) (m : Bytes)
    (hm : ∀ b ∈ m, b < 0x80) : ∀ h : Hdr, (∀ e ∈ h, e.2 ≠ []) →
    ((∃ n ∈ ns, SameText m n) → getFirstHeader U (copyFrom U h src ns) m = getFirstHeader U src m) ∧
    ((∀ n ∈ ns, ¬ SameText m n) → getFirstHeader U (copyFrom U h src ns) m = getFirstHeader U h m) := by
  induction ns with
  | nil =>
    intro h _
    exact ⟨by simp, fun _ => rfl⟩
  | cons n ns ih =>
    intro h hne
    obtain ⟨i1, i2⟩ := ih (fun x hx => hns x (by simp [hx])) _ (set_nonempty U hne n (getFirstHeader U src n))
    obtain ⟨g1, -, g3⟩ := C83_set_get U h n (getFirstHeader U src n) m (hns n (by simp)) hm
    rw [copyFrom]
    refine ⟨fun hx => ?_, fun hx => ?_⟩
    · by_cases hr : ∃ n ∈ ns, SameText m n
      · exact i1 hr
      · rw [i2 (fun x hx hs => hr ⟨x, hx, hs⟩)]
        obtain ⟨x, hx, hs⟩ := hx
        rcases List.mem_cons.1 hx with rfl | hx
        · rw [g1 hs, (C79_any_case U src m x hm (hns x (by simp)) hs).1]
        · exact absurd ⟨x, hx, hs⟩ hr
    · rw [i2 (fun x hx' => hx x (by simp [hx']))]
      exact g3 (hx n (by simp)) hne

example (U : Unicode) : getFirstHeader U (copyFrom U [(text "via", [text "a"])] someHdr [text "CSeq", text "Call-ID"]) (text "cseq") =
      getFirstHeader U someHdr (text "cseq") ∧
    getFirstHeader U (copyFrom U [(text "via", [text "a"])] someHdr [text "CSeq", text "Call-ID"]) (text "via") =
      getFirstHeader U [(text "via", [text "a"])] (text "via") :=
  ⟨(C83_copy U someHdr _ (by decide +kernel) _ (by decide +kernel) _ (by decide +kernel)).1
      ⟨text "CSeq", by simp, by simp only [SameText]; decide +kernel⟩,
    (C83_copy U someHdr _ (by decide +kernel) _ (by decide +kernel) _ (by decide +kernel)).2
      (by simp only [SameText]; decide +kernel)⟩

/-- C83, the limit of `CopyFrom`: it stores exactly one value, so the further values of a header are lost, and a header that
the source does not have is created with an empty value. -/
theorem C83_copy_one_value (U : Unicode) (h src : Hdr) (n : Bytes) :
    getHeader U (copyFrom U h src [n]) n = [getFirstHeader U src n] := by
  simp only [copyFrom, setFirstHeader, getHeader, Sips.vals, mget_mset, if_true, Option.isSome_some, Option.getD_some]
  simp

example (U : Unicode) : getHeader U (copyFrom U [] someHdr [text "call-id"]) (text "call-id") = [text "a84b4c76e66710"] := by
  rw [C83_copy_one_value, (C79_lookup_partial U someHdr someHdr_distinct (text "call-id") (text "call-id") _ _ (by decide +kernel)
    (by decide +kernel) (by simp only [SameText]) (by decide +kernel : (text "call-id", [text "a84b4c76e66710", text "x"]) ∈ someHdr)).1]

/-! ## C84 -/

theorem lower_cl (U : Unicode) : toLower U b!"content-length" = b!"content-length" := toLower_keep U (by decide)

theorem mem_mset_iff {α} (m : List (Bytes × α)) (k : Bytes) (v : α) (e : Bytes × α) :
    e ∈ mset m k v ↔ e = (k, v) ∨ (e ∈ m ∧ e.1 ≠ k) := by
  rw [mset]
  split
  · rename_i h
    rw [List.any_eq_true] at h
    obtain ⟨x, hx, hk⟩ := h
    simp only [beq_iff_eq] at hk
    rw [List.mem_map]
    constructor
    · rintro ⟨y, hy, rfl⟩
      split
      · left; rfl
      · rename_i hne; right; exact ⟨hy, hne⟩
    · rintro (rfl | ⟨h1, h2⟩)
      · exact ⟨x, hx, by rw [if_pos hk]⟩
      · exact ⟨e, h1, by rw [if_neg h2]⟩
  · rename_i h
    rw [List.mem_append, List.mem_singleton]
    constructor
    · rintro (he | rfl)
      · right
        refine ⟨he, fun hk => h ?_⟩
        rw [List.any_eq_true]
        exact ⟨e, he, by simpa using hk⟩
      · left; rfl
    · rintro (rfl | ⟨h1, h2⟩)
      · right; rfl
      · left; exact h1

/-- C84 (partial): `Bytes` writes the first line, then one entry for every header, among them exactly one `content-length`,
which is the payload length, in whatever order Go visits the map; then the payload after a blank line.  (What the caller
stored under another spelling of content-length is kept as well.) -/
theorem C84_content_length_partial (U : Unicode) (s s' : Sip) (h : Hdr) (hs : s.headers = some h) (hd : (h.map Prod.fst).Nodup)
    (order : Hdr → Hdr) (ho : ∀ x, (order x).Perm x) (w : Bytes) (hb : s.bytes U order = (.ok w, s')) :
    ∃ (l d : Bytes) (es : Hdr), w = l ++ text "\r\n" ++
        (es.map fun e => e.1 ++ text ":" ++ (e.2.map fun v => text " " ++ v ++ text "\r\n").flatten).flatten ++
        (if s.payload = [] then [] else text "\r\n" ++ s.payload) ∧
      (es.map Prod.fst).Nodup ∧ IsDecimal d s.payload.length ∧
      (∀ e, e ∈ es ↔ e = (text "content-length", [d]) ∨ (e ∈ h ∧ e.1 ≠ text "content-length")) ∧
      s'.hdr.Perm es ∧ s'.payload = s.payload := by
  rw [Sip.bytes, hs] at hb
  cases hl : firstLineBytes s with
  | ok l =>
    rw [hl] at hb
    simp only [Prod.mk.injEq, Res.ok.injEq] at hb
    obtain ⟨hb1, hb2⟩ := hb
    have hcl : text "content-length" = b!"content-length" := by decide +kernel
    have hset : setContentLength U h s.payload.length = mset h b!"content-length" [itoa s.payload.length] := by
      rw [setContentLength, setFirstHeader, lower_cl]
    refine ⟨l, itoa s.payload.length, order (setContentLength U h s.payload.length), ?_, ?_, itoa_nat _, ?_, ?_, ?_⟩
    · rw [← hb1, hdrBytes, show text "\r\n" = b!"\r\n" from by decide +kernel, show text ":" = b!":" from by decide +kernel,
        show text " " = b!" " from by decide +kernel]
      congr 1
      by_cases hp : s.payload = []
      · rw [if_pos hp, hp]; rfl
      · rw [if_neg hp, if_pos (List.length_pos_iff.2 hp)]
    · rw [(((ho _).map Prod.fst).nodup_iff), hset]
      exact mset_keys_nodup _ _ hd
    · intro e
      rw [(ho _).mem_iff, hset, mem_mset_iff, hcl]
    · rw [← hb2]
      exact (ho _).symm
    · rw [← hb2]
  | err e => rw [hl] at hb; simp at hb
  | panic => rw [hl] at hb; simp at hb
  | diverge => rw [hl] at hb; simp at hb

/-- The message of the examples: an OK with a content length that is wrong. -/
def someOk (k : String) : Sip := makeResponse 200 (some [(text k, [text "1024"])]) (text "abc")

example : ∃ (l d : Bytes) (es : Hdr),
    text "SIP/2.0 200 OK\r\ncontent-length: 3\r\n\r\nabc" = l ++ text "\r\n" ++
        (es.map fun e => e.1 ++ text ":" ++ (e.2.map fun v => text " " ++ v ++ text "\r\n").flatten).flatten ++
        (if (someOk "content-length").payload = [] then [] else text "\r\n" ++ (someOk "content-length").payload) ∧
      (es.map Prod.fst).Nodup ∧ IsDecimal d (someOk "content-length").payload.length ∧
      (∀ e, e ∈ es ↔ e = (text "content-length", [d]) ∨
        (e ∈ [(text "content-length", [text "1024"])] ∧ e.1 ≠ text "content-length")) ∧
      ((someOk "content-length").bytes plainU id).2.hdr.Perm es ∧ ((someOk "content-length").bytes plainU id).2.payload =
        (someOk "content-length").payload :=
  C84_content_length_partial plainU (someOk "content-length") _ [(text "content-length", [text "1024"])] (by decide +kernel) (by simp) id
    (fun _ => List.Perm.refl _) _ (by
      have h : ((someOk "content-length").bytes plainU id).1 = .ok (text "SIP/2.0 200 OK\r\ncontent-length: 3\r\n\r\nabc") := by
        decide +kernel
      rw [← h])

/-- C84 fails: what the caller stored under another spelling of the name is written too, so the message has two content
lengths. -/
theorem C84_two_lengths_refuted (U : Unicode) (s s' : Sip) (h : Hdr) (hs : s.headers = some h) (hd : (h.map Prod.fst).Nodup)
    (order : Hdr → Hdr) (ho : ∀ x, (order x).Perm x) (w : Bytes) (hb : s.bytes U order = (.ok w, s')) (k v : Bytes)
    (hk : k ≠ text "content-length") (_hsame : SameText k (text "content-length")) (hm : (k, [v]) ∈ h) :
    (∃ a b, w = a ++ (k ++ text ": " ++ v ++ text "\r\n") ++ b) ∧
    ∃ a b d, w = a ++ (text "content-length: " ++ d ++ text "\r\n") ++ b ∧ IsDecimal d s.payload.length := by
  obtain ⟨l, d, es, hw, -, hdec, hes, -, -⟩ := C84_content_length_partial U s s' h hs hd order ho w hb
  have key : ∀ k v, (k, [v]) ∈ es → ∃ a b, w = a ++ (k ++ text ": " ++ v ++ text "\r\n") ++ b := by
    intro k v he
    obtain ⟨e1, e2, rfl⟩ := List.append_of_mem he
    rw [hw]
    refine ⟨l ++ text "\r\n" ++ (e1.map fun e => e.1 ++ text ":" ++ (e.2.map fun v => text " " ++ v ++ text "\r\n").flatten).flatten,
      (e2.map fun e => e.1 ++ text ":" ++ (e.2.map fun v => text " " ++ v ++ text "\r\n").flatten).flatten ++
        (if s.payload = [] then [] else text "\r\n" ++ s.payload), ?_⟩
    rw [show text ": " = text ":" ++ text " " from by decide +kernel]
    simp
  refine ⟨key k v ((hes _).2 (.inr ⟨hm, hk⟩)), ?_⟩
  obtain ⟨a, b, hab⟩ := key _ d ((hes _).2 (.inl rfl))
  refine ⟨a, b, d, ?_, hdec⟩
  rw [hab, show text "content-length: " = text "content-length" ++ text ": " from by decide +kernel]

example : (∃ a b, text "SIP/2.0 200 OK\r\nContent-Length: 1024\r\ncontent-length: 3\r\n\r\nabc" =
      a ++ (text "Content-Length" ++ text ": " ++ text "1024" ++ text "\r\n") ++ b) ∧
    ∃ a b d, text "SIP/2.0 200 OK\r\nContent-Length: 1024\r\ncontent-length: 3\r\n\r\nabc" =
      a ++ (text "content-length: " ++ d ++ text "\r\n") ++ b ∧ IsDecimal d (someOk "Content-Length").payload.length :=
  C84_two_lengths_refuted plainU (someOk "Content-Length") _ [(text "Content-Length", [text "1024"])] (by decide +kernel) (by simp) id
    (fun _ => List.Perm.refl _) _ (by
      have h : ((someOk "Content-Length").bytes plainU id).1 =
          .ok (text "SIP/2.0 200 OK\r\nContent-Length: 1024\r\ncontent-length: 3\r\n\r\nabc") := by decide +kernel
      rw [← h]) (text "Content-Length") (text "1024") (by decide +kernel) (by simp only [SameText]; decide +kernel) (by simp)

/-- C84 fails: without a header map (`SetHeader(nil)`), or for a request without a request URI, `Bytes` panics. -/
theorem C84_nil_panics_refuted (U : Unicode) (order : Hdr → Hdr) (s : Sip)
    (h : s.headers = none ∨ (s.isResponse = false ∧ s.request = none)) : (s.bytes U order).1 = .panic := by
  rcases h with h | ⟨h1, h2⟩
  · rw [Sip.bytes, h]
    cases firstLineBytes s <;> rfl
  · have : firstLineBytes s = .panic := by rw [firstLineBytes, h1, h2]; rfl
    rw [Sip.bytes, this]

example (U : Unicode) : (((makeRequest 3 (some someRequest) none []).setHeader none).bytes U id).1 = .panic :=
  C84_nil_panics_refuted U id _ (.inl rfl)

/-! ## C80 -/

theorem foldl_dec_ge (s : Bytes) : ∀ a : Nat, a * 10 ^ s.length ≤ s.foldl (fun a b => a * 10 + (b.toNat - 48)) a := by
  induction s with
  | nil => intro a; simp
  | cons b s ih =>
    intro a
    rw [List.foldl_cons]
    refine Nat.le_trans ?_ (ih _)
    rw [List.length_cons, Nat.pow_succ, Nat.mul_comm (10 ^ s.length) 10, ← Nat.mul_assoc]
    exact Nat.mul_le_mul_right _ (by omega)

/-- A number below 2^63 has few digits. -/
theorem isDecimal_length {d : Bytes} {n : Nat} (h : IsDecimal d n) (hn : n < 2 ^ 63) : d.length ≤ 20 := by
  obtain ⟨h1, h2, h3, h4⟩ := h
  obtain ⟨b, s, rfl⟩ := List.exists_cons_of_ne_nil h1
  by_cases hb : b = 48
  · have := h3 (by rw [hb]; rfl)
    rw [this]; simp
  · have hb' : 1 ≤ b.toNat - 48 := by
      have := (h2 b (by simp)).1
      rw [UInt8.le_iff_toNat_le] at this
      have hne : b.toNat ≠ 48 := fun h => hb (UInt8.toNat_inj.1 h)
      simp at this
      omega
    have hge := foldl_dec_ge s (b.toNat - 48)
    rw [decVal, List.foldl_cons, Nat.zero_mul, Nat.zero_add] at h4
    rw [h4] at hge
    have h10 : 10 ^ s.length ≤ n := Nat.le_trans (Nat.le_mul_of_pos_left _ hb') hge
    by_cases hl : s.length ≤ 19
    · simp; omega
    · exfalso
      have : 10 ^ 20 ≤ 10 ^ s.length := Nat.pow_le_pow_right (by omega) (by omega)
      omega

/-- The headers of the message as they are written. -/
theorem build_headers (U : Unicode) (order : Hdr → Hdr) (ho : ∀ x, (order x).Perm x) (hs : List (Bytes × Bytes))
    (hn : (hs.map Prod.fst).Nodup) (n : Nat) :
    ∃ hs' : List (Bytes × Bytes), order (setContentLength U (hs.map one) n) = hs'.map one ∧ (hs'.map Prod.fst).Nodup ∧
      ∀ e, e ∈ hs' ↔ e = (b!"content-length", itoa n) ∨ (e ∈ hs ∧ e.1 ≠ b!"content-length") := by
  have hset : setContentLength U (hs.map one) n = mset (hs.map one) b!"content-length" [itoa n] := by
    rw [setContentLength, setFirstHeader, lower_cl]
  have hmem : ∀ e, e ∈ order (setContentLength U (hs.map one) n) ↔
      e = (b!"content-length", [itoa n]) ∨ (e ∈ hs.map one ∧ e.1 ≠ b!"content-length") := by
    intro e
    rw [(ho _).mem_iff, hset, mem_mset_iff]
  obtain ⟨hs', h'⟩ := exists_ones (h := order (setContentLength U (hs.map one) n)) (by
    intro e he
    rcases (hmem e).1 he with rfl | ⟨he, -⟩
    · exact ⟨_, rfl⟩
    · obtain ⟨x, -, rfl⟩ := List.mem_map.1 he
      exact ⟨x.2, rfl⟩)
  have inj : ∀ (e : Bytes × Bytes) (l : List (Bytes × Bytes)), one e ∈ l.map one ↔ e ∈ l := by
    intro e l
    rw [List.mem_map]
    constructor
    · rintro ⟨x, hx, hxe⟩
      obtain ⟨h1, h2⟩ := Prod.mk.inj hxe
      have : x = e := Prod.ext h1 (List.cons.inj h2).1
      exact this ▸ hx
    · intro h; exact ⟨e, h, rfl⟩
  refine ⟨hs', h', ?_, ?_⟩
  · have : ((hs'.map one).map Prod.fst).Nodup := by
      rw [← h', ((ho _).map Prod.fst).nodup_iff, hset]
      apply mset_keys_nodup
      rw [List.map_map]; exact hn
    rw [List.map_map] at this
    exact this
  · intro e
    rw [← inj, ← h', hmem, inj]
    constructor
    · rintro (h | h)
      · left
        obtain ⟨h1, h2⟩ := Prod.mk.inj h
        exact Prod.ext h1 (List.cons.inj h2).1
      · right; exact h
    · rintro (rfl | h)
      · left; rfl
      · right; exact h

/-- A header section that survives: distinct names, single values, short lines, and addresses without empty arguments. -/
structure HeadersOk (hs : List (Bytes × Bytes)) : Prop where
  distinct : (hs.map Prod.fst).Nodup
  names : ∀ e ∈ hs, HeaderName e.1
  values : ∀ e ∈ hs, HeaderValue e.2
  short : ∀ e ∈ hs, e.1.length + e.2.length + 4 ≤ 4096
  addresses : ∀ e ∈ hs, (e.1 = text "contact" ∨ e.1 = text "from" ∨ e.1 = text "to" ∨ e.1 = text "via") →
    ValuesPresent e.2

/-- What `Parse` has to recover: the headers with the right content length, the parsed addresses, the body. -/
structure Recovered (m : Sip) (hs : List (Bytes × Bytes)) (body : Bytes) : Prop where
  /-- Exactly the given headers, with the content length set to the length of the body. -/
  headers : ∃ d, IsDecimal d body.length ∧ (m.hdr.map Prod.fst).Nodup ∧ ∀ e, e ∈ m.hdr ↔
    e = (text "content-length", [d]) ∨ (e.1 ≠ text "content-length" ∧ ∃ v, e.2 = [v] ∧ (e.1, v) ∈ hs)
  from_ : ∀ v, (text "from", v) ∈ hs → ∃ u, newSIPUser v = .ok u ∧ m.fromU = some u
  to_ : ∀ v, (text "to", v) ∈ hs → ∃ u, newSIPUser v = .ok u ∧ m.toU = some u
  contact : ∀ v, (text "contact", v) ∈ hs → ∃ u, newSIPUser v = .ok u ∧ m.contact = some u
  via : ∀ v, (text "via", v) ∈ hs → ∃ u, newSIPVia v = .ok u ∧ m.via = some u
  cseq : ∀ v, (text "cseq", v) ∈ hs → m.cseq = some (newSIPCseq v)
  empty : body = [] → m.payload = []
  /-- The blank line, then the body: all of it, or all but the last one or two bytes, or nothing if it has at most two. -/
  payload : body ≠ [] → ∃ k, m.payload = text "\r\n" ++ body.take k ∧ k ≤ body.length ∧ body.length ≤ k + 2 ∧
    (body.length ≤ 2 → k = 0)

theorem recover (U : Unicode) (order : Hdr → Hdr) (ho : ∀ x, (order x).Perm x) (s s0 : Sip) (l0 : Bytes) (hs : List (Bytes × Bytes))
    (hh : HeadersOk hs) (hsh : s.headers = some (hs.map one)) (hl : firstLineBytes s = .ok l0)
    (hfirst : parseFirstLine U l0 Sip.new = (.ok (), s0)) (h0 : s0.headers = some [])
    (hl0 : ∀ b ∈ l0, b ≠ 13 ∧ b ≠ 10) (hne : l0 ≠ []) (hlen0 : l0.length + 2 ≤ 4096) (hbody : s.payload.length < 2 ^ 63) :
    ∃ w m, (s.bytes U order).1 = .ok w ∧ parseBytes U Sip.new w = (.ok (), m) ∧ Recovered m hs s.payload ∧
      ∃ h l c f t v p q x, m = { s0 with headers := h, last := l, contact := c, fromU := f, toU := t, via := v, payload := p, cseq := q, contents := x } := by
  obtain ⟨hs', hord, hn', hmem⟩ := build_headers U order ho hs hh.distinct s.payload.length
  have hdec := itoa_nat s.payload.length
  have hclk : text "content-length" = b!"content-length" := by decide +kernel
  have hname : HeaderName b!"content-length" := ⟨by decide, by decide⟩
  have hsub : ∀ n ∈ addressNames, n ≠ b!"content-length" := by decide
  have hwf : ∀ e ∈ hs', HeaderName e.1 ∧ HeaderValue e.2 ∧ e.1.length + e.2.length + 4 ≤ 4096 := by
    intro e he
    rcases (hmem e).1 he with rfl | ⟨he, -⟩
    · refine ⟨hname, ⟨?_, ?_, ?_⟩, ?_⟩
      · intro b hb
        rcases itoa_chars (s.payload.length : Nat) b hb with rfl | ⟨h1, -⟩
        · decide
        · rw [UInt8.le_iff_toNat_le] at h1
          constructor <;> (rintro rfl; simp at h1)
      · intro h
        rcases itoa_chars (s.payload.length : Nat) _ (List.mem_of_head? (by exact h)) with h | ⟨h1, -⟩
        · simp at h
        · rw [UInt8.le_iff_toNat_le] at h1; simp at h1
      · intro h
        rcases itoa_chars (s.payload.length : Nat) _ (List.mem_of_getLast? (by exact h)) with h | ⟨h1, -⟩
        · simp at h
        · rw [UInt8.le_iff_toNat_le] at h1; simp at h1
      · have := isDecimal_length hdec hbody
        simp
        omega
    · exact ⟨hh.names e he, hh.values e he, hh.short e he⟩
  have haddr : ∀ e ∈ hs', e.1 ∈ addressNames → Good e.2 := by
    intro e he ha
    rcases (hmem e).1 he with rfl | ⟨he, -⟩
    · exact absurd rfl (hsub _ ha)
    · refine hh.addresses e he ?_
      rw [show text "contact" = b!"contact" from by decide +kernel, show text "from" = b!"from" from by decide +kernel,
        show text "to" = b!"to" from by decide +kernel, show text "via" = b!"via" from by decide +kernel]
      simpa [addressNames] using ha
  obtain ⟨k, last, c, f, t, v, hp, hc, hf, ht, hv, k1, k2, k3⟩ := parse_message U s0 l0 hs' s.payload (itoa s.payload.length) hfirst h0
    hl0 hne hlen0 hn' hwf haddr ((hmem _).2 (.inl rfl)) hdec hbody
  have hget : ∀ n : Bytes, (∀ b ∈ n, b < 0x80 ∧ ¬ (0x41 ≤ b ∧ b ≤ 0x5a)) → n ≠ b!"content-length" → ∀ v, (n, v) ∈ hs →
      getFirstHeader U (hs'.map one) n = v := by
    intro n hn hne v hv
    refine getFirstHeader_one U (toLower_keep U hn) (mem_of_mget ?_ (List.mem_map.2 ⟨(n, v), (hmem _).2 (.inr ⟨hv, hne⟩), rfl⟩))
    rw [List.map_map]; exact hn'
  refine ⟨_, _, ?_, hp, ?_, _, _, _, _, _, _, _, _, _, rfl⟩
  · rw [Sip.bytes, hl, hsh]
    simp only [hord]
    congr 2
    by_cases hb : s.payload = []
    · rw [if_pos hb, hb]; rfl
    · rw [if_neg hb, if_pos (List.length_pos_iff.2 hb)]
  · constructor
    · refine ⟨_, hdec, ?_, ?_⟩
      · show ((hs'.map one).map Prod.fst).Nodup
        rw [List.map_map]; exact hn'
      · intro e
        show e ∈ hs'.map one ↔ _
        rw [hclk, List.mem_map]
        constructor
        · rintro ⟨x, hx, rfl⟩
          rcases (hmem x).1 hx with rfl | ⟨h1, h2⟩
          · left; rfl
          · right; exact ⟨h2, x.2, rfl, h1⟩
        · rintro (rfl | ⟨h1, v, h2, h3⟩)
          · exact ⟨_, (hmem _).2 (.inl rfl), rfl⟩
          · refine ⟨(e.1, v), (hmem _).2 (.inr ⟨h3, h1⟩), ?_⟩
            rw [one, ← h2]
    · intro v hv
      rw [show text "from" = b!"from" from by decide +kernel] at hv
      rw [getSIPFrom, hget _ (by decide) (by decide) v hv] at hf
      exact ⟨f, hf, rfl⟩
    · intro v hv
      rw [show text "to" = b!"to" from by decide +kernel] at hv
      rw [getSIPTo, hget _ (by decide) (by decide) v hv] at ht
      exact ⟨t, ht, rfl⟩
    · intro v hv
      rw [show text "contact" = b!"contact" from by decide +kernel] at hv
      rw [getSIPContact, hget _ (by decide) (by decide) v hv] at hc
      exact ⟨c, hc, rfl⟩
    · intro v' hv'
      rw [show text "via" = b!"via" from by decide +kernel] at hv'
      rw [getSIPVia, hget _ (by decide) (by decide) v' hv'] at hv
      exact ⟨v, hv, rfl⟩
    · intro v hv
      rw [show text "cseq" = b!"cseq" from by decide +kernel] at hv
      show some (getSIPCseq U (hs'.map one)) = _
      rw [getSIPCseq, hget _ (by decide) (by decide) v hv]
    · intro hb
      show (if s.payload = [] then [] else _) = _
      rw [if_pos hb]
    · intro hb
      refine ⟨k, ?_, k1, k2, k3⟩
      show (if s.payload = [] then [] else _) = _
      rw [if_neg hb, show text "\r\n" = b!"\r\n" from by decide +kernel]

theorem fill_eq (s : Sip) (hs : List (Bytes × Bytes)) (body : Bytes) (h1 : s.headers = some []) (h2 : s.payload = []) :
    s.fill (some (hs.map one)) body = { s with headers := some (hs.map one), payload := body } := by
  have e1 : (if ((some (hs.map one)).getD []).length > 0 then s.setHeader (some (hs.map one)) else s) =
      { s with headers := some (hs.map one) } := by
    cases hs with
    | nil =>
      obtain ⟨_, _, _, hd, _, _, _, _, _, _, _, _, _, _, _⟩ := s
      have h1 : hd = some [] := h1
      subst h1
      rfl
    | cons e hs => simp [Sip.setHeader]
  rw [Sip.fill, e1]
  cases body with
  | nil =>
    obtain ⟨_, pl, _, _, _, _, _, _, _, _, _, _, _, _, _⟩ := s
    have h2 : pl = [] := h2
    subst h2
    rfl
  | cons b body => simp [Sip.setBody]

/-- C80 (partial): a request built by `MakeRequest` and written by `Bytes` is parsed back: method, request URI, version,
headers, addresses.  The header map is visited in any order.  The body comes back only behind the blank line and perhaps
without its last two bytes. -/
theorem C80_request_partial (U : Unicode) (order : Hdr → Hdr) (ho : ∀ x, (order x).Perm x) (e : UInt16 × String) (he : e ∈ methods)
    (q : Request) (ht : q.uriType = text "sip" ∨ q.uriType = text "sips" ∨ q.uriType = text "tel")
    (hu : ∀ b ∈ q.user, b ≠ 0x40 ∧ b ≠ 0x3b) (hho : ∀ b ∈ q.host, b ≠ 0x3a ∧ b ≠ 0x3b) (hpo : ∀ b ∈ q.port, b ≠ 0x3b)
    (ha : ArgMap q.args) (hq : ∀ b ∈ q.bytes, b ≠ 0x20 ∧ b ≠ 13 ∧ b ≠ 10) (hql : q.bytes.length ≤ 4000)
    (hs : List (Bytes × Bytes)) (hh : HeadersOk hs) (body : Bytes) (hbody : body.length < 2 ^ 63) :
    ∃ w m, ((makeRequest e.1 (some q) (some (hs.map fun e => (e.1, [e.2]))) body).bytes U order).1 = .ok w ∧
      parseBytes U Sip.new w = (.ok (), m) ∧ m.isResponse = false ∧ m.method = e.1 ∧ m.version = 2 ∧ m.request = some q ∧
      Recovered m hs body := by
  have htab : ∀ e ∈ methods, (∀ b ∈ text e.2, b ≠ 0x20 ∧ b ≠ 13 ∧ b ≠ 10 ∧ b < 0x80) ∧ text e.2 ≠ [] ∧ (text e.2).length ≤ 9 ∧
      hasPrefix (text e.2) b!"SIP" = false := by decide +kernel
  obtain ⟨t1, t2, t3, t4⟩ := htab e he
  obtain ⟨m1, m2⟩ := C71_methods U e he
  have hparse : newSIPRequest q.bytes = .ok q := newSIPRequest_bytes q ⟨by
      rcases ht with h | h | h <;> rw [h] <;> decide +kernel, fun b hb => ⟨(hu b hb).2, (hu b hb).1⟩,
      fun b hb => ⟨(hho b hb).2, (hho b hb).1⟩, hpo, ha⟩
  have hfill : makeRequest e.1 (some q) (some (hs.map fun e => (e.1, [e.2]))) body =
      { Sip.new with method := e.1, request := some q, version := 2, headers := some (hs.map one), payload := body } := by
    rw [makeRequest]
    exact fill_eq _ hs body rfl rfl
  rw [hfill]
  have hline : firstLineBytes { Sip.new with method := e.1, request := some q, version := 2, headers := some (hs.map one), payload := body } =
      .ok (text e.2 ++ 0x20 :: (q.bytes ++ 0x20 :: b!"SIP/2.0")) := by
    rw [firstLineBytes]
    simp only [Sip.new, Bool.false_eq_true, if_false]
    rw [m1, versionString, if_neg (by decide)]
    simp
  obtain ⟨w, m, g1, g2, g3, h, l, c, f, t, v, p, cq, x, g4⟩ := recover U order ho _ _ _ hs hh rfl hline
    (parseFirstLine_request U Sip.new (text e.2) q.bytes b!"SIP/2.0" e.1 2 q (fun h => (t1 _ h).1 rfl) (fun h => (hq _ h).1 rfl) t4
      (m2 _ (fun b hb => (t1 b hb).2.2.2) rfl) hparse (version2 U)) rfl
    (by
      intro b hb
      simp only [List.mem_append, List.mem_cons] at hb
      rcases hb with hb | rfl | hb | rfl | hb
      · exact (t1 b hb).2.imp_right And.left
      · decide
      · exact (hq b hb).2
      · decide
      · have : ∀ b ∈ b!"SIP/2.0", b ≠ 13 ∧ b ≠ 10 := by decide
        exact this b (by simpa using hb)) (by simp) (by simp; omega) hbody
  refine ⟨w, m, g1, g2, ?_, ?_, ?_, ?_, g3⟩ <;> rw [g4] <;> rfl

/-- C80 (partial): the same for responses: status code and text, version, headers, addresses. -/
theorem C80_response_partial (U : Unicode) (order : Hdr → Hdr) (ho : ∀ x, (order x).Perm x) (code : Int) (hc1 : -2 ^ 63 ≤ code)
    (hc2 : code < 2 ^ 63) (hs : List (Bytes × Bytes)) (hh : HeadersOk hs) (body : Bytes) (hbody : body.length < 2 ^ 63) :
    ∃ w m, ((makeResponse code (some (hs.map fun e => (e.1, [e.2]))) body).bytes U order).1 = .ok w ∧
      parseBytes U Sip.new w = (.ok (), m) ∧ m.isResponse = true ∧ m.responseCode = code ∧ m.responseStatus = statusText code ∧
      m.version = 2 ∧ Recovered m hs body := by
  have htab : ∀ e ∈ statusTexts, (∀ b ∈ e.2, b ≠ 13 ∧ b ≠ 10) ∧ e.2.length ≤ 100 := by decide +kernel
  have htext : (∀ b ∈ statusText code, b ≠ 13 ∧ b ≠ 10) ∧ (statusText code).length ≤ 100 := by
    rw [statusText]
    cases hl : statusTexts.lookup code with
    | none => simp
    | some v => exact htab (code, v) (List.lookup_eq_some_iff.1 hl |> fun ⟨l1, l2, h, _⟩ => by rw [h]; simp)
  have hdig : ∀ b ∈ itoa code, b ≠ 0x20 ∧ b ≠ 13 ∧ b ≠ 10 := by
    intro b hb
    rcases itoa_chars _ b hb with rfl | ⟨h1, -⟩
    · decide
    · rw [UInt8.le_iff_toNat_le] at h1
      refine ⟨?_, ?_, ?_⟩ <;> (rintro rfl; simp at h1)
  have hlen : (itoa code).length ≤ 30 := by
    by_cases hneg : code < 0
    · have h1 := digitsAux_spec (code.natAbs + 1) code.natAbs (by omega)
      rw [itoa, if_pos hneg]
      by_cases hmin : code.natAbs < 2 ^ 63
      · have := isDecimal_length h1 hmin
        simp; omega
      · have : code = -2 ^ 63 := by omega
        subst this
        decide +kernel
    · have := isDecimal_length (itoa_nat code.natAbs) (by omega)
      rw [show ((code.natAbs : Nat) : Int) = code by omega] at this
      omega
  have hfill : makeResponse code (some (hs.map fun e => (e.1, [e.2]))) body =
      { Sip.new with isResponse := true, version := 2, responseCode := code, headers := some (hs.map one), payload := body } := by
    rw [makeResponse]
    exact fill_eq _ hs body rfl rfl
  rw [hfill]
  have hline : firstLineBytes { Sip.new with isResponse := true, version := 2, responseCode := code, headers := some (hs.map one), payload := body } =
      .ok (b!"SIP/2.0" ++ 0x20 :: (itoa code ++ 0x20 :: statusText code)) := by
    rw [firstLineBytes]
    simp only [if_true]
    rw [versionString, if_neg (by decide), statusString]
    simp
  obtain ⟨w, m, g1, g2, g3, h, l, c, f, t, v, p, cq, x, g4⟩ := recover U order ho _ _ _ hs hh rfl hline
    (parseFirstLine_response U Sip.new b!"SIP/2.0" (itoa code) (statusText code) code 2 (by decide) (fun h => (hdig _ h).1 rfl)
      (by decide) (version2 U) (atoi_itoa hc1 hc2)) rfl
    (by
      intro b hb
      rcases List.mem_append.1 hb with hb | hb
      · have : ∀ b ∈ b!"SIP/2.0", b ≠ 13 ∧ b ≠ 10 := by decide
        exact this b hb
      rw [List.mem_cons, List.mem_append, List.mem_cons] at hb
      rcases hb with rfl | hb | rfl | hb
      · decide
      · exact (hdig b hb).2
      · decide
      · exact htext.1 b hb) (by simp) (by simp; have := htext.2; omega) hbody
  refine ⟨w, m, g1, g2, ?_, ?_, ?_, ?_, g3⟩ <;> rw [g4] <;> rfl

/-- C80 fails for the body: no body that does not itself begin with CR comes back. -/
theorem C80_body_refuted {m : Sip} {hs : List (Bytes × Bytes)} {body : Bytes} (h : Recovered m hs body) (hne : body ≠ [])
    (hb : body.head? ≠ some 13) : m.payload ≠ body := by
  obtain ⟨k, hk, -⟩ := h.payload hne
  rw [hk, show text "\r\n" = [13, 10] from by decide +kernel]
  intro h'
  exact hb (by rw [← h']; rfl)

/-- The headers of the example. -/
def someHeaders : List (Bytes × Bytes) := [(text "via", text "SIP/2.0/UDP pc33.atlanta.com:5060;branch=z9hG4bK776"),
  (text "from", text "\"Bob\" <sip:bob@biloxi.com>;tag=a6c85cf"), (text "to", text "<sip:alice@atlanta.com>"),
  (text "cseq", text "231 BYE"), (text "content-length", text "77")]

theorem someHeaders_ok : HeadersOk someHeaders := by
  have h1 : (someHeaders.map Prod.fst).Nodup := by decide +kernel
  have h2 : ∀ e ∈ someHeaders, e.1 ≠ [] ∧ ∀ b ∈ e.1, 0x21 ≤ b ∧ b ≤ 0x7e ∧ b ≠ 0x3a ∧ ¬ (0x41 ≤ b ∧ b ≤ 0x5a) := by decide +kernel
  have h3 : ∀ e ∈ someHeaders, (∀ b ∈ e.2, b ≠ 13 ∧ b ≠ 10) ∧ e.2.head? ≠ some 0x20 ∧ e.2.getLast? ≠ some 0x20 := by decide +kernel
  have h4 : ∀ e ∈ someHeaders, e.1.length + e.2.length + 4 ≤ 4096 := by decide +kernel
  have h5 : ∀ e ∈ someHeaders, valuesPresentB e.2 = true := by decide +kernel
  exact ⟨h1, fun e he => ⟨(h2 e he).1, (h2 e he).2⟩, fun e he => ⟨(h3 e he).1, (h3 e he).2.1, (h3 e he).2.2⟩, h4,
    fun e he _ => valuesPresent_of (h5 e he)⟩

example (U : Unicode) : ∃ w m, ((makeRequest 3 (some someRequest) (some (someHeaders.map fun e => (e.1, [e.2]))) (text "hello")).bytes U
      List.reverse).1 = .ok w ∧ parseBytes U Sip.new w = (.ok (), m) ∧ m.isResponse = false ∧ m.method = 3 ∧ m.version = 2 ∧
      m.request = some someRequest ∧ Recovered m someHeaders (text "hello") :=
  C80_request_partial U List.reverse (fun _ => List.reverse_perm _) (3, "BYE") (by decide) someRequest (.inr (.inl rfl))
    (by decide +kernel) (by decide +kernel) (by decide +kernel) someArgs_ok (by decide +kernel) (by decide +kernel) someHeaders
    someHeaders_ok (text "hello") (by decide +kernel)

example (U : Unicode) : ∃ w m, ((makeResponse 486 (some (someHeaders.map fun e => (e.1, [e.2]))) []).bytes U List.reverse).1 = .ok w ∧
      parseBytes U Sip.new w = (.ok (), m) ∧ m.isResponse = true ∧ m.responseCode = 486 ∧ m.responseStatus = statusText 486 ∧
      m.version = 2 ∧ Recovered m someHeaders [] :=
  C80_response_partial U List.reverse (fun _ => List.reverse_perm _) 486 (by decide) (by decide) someHeaders someHeaders_ok []
    (by decide)
example : statusText 486 = text "Busy Here" := by decide +kernel

/-- Bodies of one or two bytes are lost altogether. -/
example : (parseBytes plainU Sip.new (text "BYE sip:a@b SIP/2.0\r\ncontent-length: 2\r\n\r\nhi")).2.payload = text "\r\n" := by decide +kernel

end Verif.Props
