import Verif.Props.SipsConn
import Verif.Lemmas.SipsCrlf
/-!
# Properties of package `sips`: typed getters, argument maps, objects without a header map (C121 to C124)
-/
namespace Verif.Props
open Verif.Sips Verif.Str Verif.Spec Verif.Spec.Sips

/-! ## C121 -/

/-- The first value sent under a name. -/
def firstSent (fs : List HField) (n : String) : Bytes := (fieldValues fs (text n)).head?.getD []

/-- C121: on a message that was received, every typed getter reads the first field of its own name and no other. -/
theorem C121_getters (U : Unicode) (m : Sip) (fs : List HField) (h : Received U m fs) :
    getCallID U m.hdr = firstSent fs "Call-ID" ∧ getExpires U m.hdr = firstSent fs "Expires" ∧
    getSIPFrom U m.hdr = newSIPUser (firstSent fs "From") ∧ getSIPTo U m.hdr = newSIPUser (firstSent fs "To") ∧
    getSIPContact U m.hdr = newSIPUser (firstSent fs "Contact") ∧ getSIPVia U m.hdr = newSIPVia (firstSent fs "Via") ∧
    getSIPCseq U m.hdr = newSIPCseq (firstSent fs "CSeq") ∧
    (∀ n, IsDecimal (firstSent fs "Content-Length") n → n < 2 ^ 63 → getContentLength U m.hdr = .ok n) ∧
    (∀ scheme ps, firstSent fs "Authorization" = scheme ++ dwire ps → SameText scheme (text "Digest ") → (∀ b ∈ scheme, b < 0x80) → ps ≠ [] →
      (∀ p ∈ ps, p.Fits) → (ps.map DParam.name).Nodup → getAuthorization U m.hdr = .ok (ps.map fun p => (p.name, p.value.den))) ∧
    (fieldValues fs (text "Authorization") = [] → getAuthorization U m.hdr = .ok []) := by
  have key : ∀ (n : String) (k : Bytes), k.map lowerAscii = (text n).map lowerAscii → (∀ b ∈ k, b < 0x80) →
      getFirstHeader U m.hdr k = firstSent fs n := by
    intro n k hk ha
    rw [h.first k ha, firstSent, fieldValues, hk]; rfl
  have k1 := key "Call-ID" b!"call-id" (by decide +kernel) (by decide)
  have k2 := key "Expires" b!"expires" (by decide +kernel) (by decide)
  have k3 := key "From" b!"from" (by decide +kernel) (by decide)
  have k4 := key "To" b!"to" (by decide +kernel) (by decide)
  have k5 := key "Contact" b!"contact" (by decide +kernel) (by decide)
  have k6 := key "Via" b!"via" (by decide +kernel) (by decide)
  have k7 := key "CSeq" b!"cseq" (by decide +kernel) (by decide)
  have k8 := key "Content-Length" b!"content-length" (by decide +kernel) (by decide)
  have k9 := key "Authorization" b!"authorization" (by decide +kernel) (by decide)
  refine ⟨k1, k2, by rw [getSIPFrom, k3], by rw [getSIPTo, k4], by rw [getSIPContact, k5], by rw [getSIPVia, k6], by rw [getSIPCseq, k7],
    fun n hn hlt => by rw [getContentLength, k8]; exact atoi_decimal hn hlt, ?_, ?_⟩
  · intro scheme ps e hs ha hne hp hd
    rw [getAuthorization, k9, e]
    exact C100_digest U scheme hs ha ps hne hp hd
  · intro e
    rw [getAuthorization, k9, firstSent, e]
    rfl

/-- The header fields of the example. -/
def loginFields : List HField := [
  ⟨text "EXPIRES", 0, 1, text "3600", 0, true, []⟩, ⟨text "call-ID", 1, 0, text "a84b4c76@pc33", 0, true, []⟩,
  ⟨text "Authorization", 0, 1, text "DIGEST " ++ dwire someDigest, 0, true, []⟩, ⟨text "expires", 0, 1, text "7", 0, true, []⟩,
  ⟨text "Content-Length", 0, 1, text "0", 0, true, []⟩]

theorem loginFields_ok : Acceptable 4096 loginFields := by
  have h1 : ∀ f ∈ loginFields, (f.name ≠ [] ∧ ∀ b ∈ f.name, 0x21 ≤ b ∧ b ≤ 0x7e ∧ b ≠ 0x3a) ∧
    ((∀ b ∈ f.value, b ≠ 13 ∧ b ≠ 10) ∧ f.value.head? ≠ some 0x20 ∧ f.value.getLast? ≠ some 0x20) ∧ f.conts.length = 0 := by decide +kernel
  have h2 : ∀ n ∈ [text "from", text "to", text "contact", text "via"], (fieldValues loginFields n).head? = none := by decide +kernel
  exact ⟨fun f hf => ⟨(h1 f hf).1, ⟨(h1 f hf).2.1.1, (h1 f hf).2.1.2.1, (h1 f hf).2.1.2.2⟩,
      fun h => absurd (List.length_eq_zero_iff.1 (h1 f hf).2.2) h, by rw [List.length_eq_zero_iff.1 (h1 f hf).2.2]; simp⟩, by decide +kernel,
    fun n hn v hv => by rw [h2 n hn] at hv; simp at hv, text "0", 0, by decide +kernel, by simp only [IsDecimal]; decide +kernel, by decide⟩

/-- A REGISTER request as it arrives, and what the getters find. -/
example (U : Unicode) : ∃ m r', parse U Sip.new ⟨[], [lines (text "REGISTER sip:a SIP/2.0" :: fieldLines loginFields) ++ [10]], 4096, .eof⟩ = (.ok (), m, r') ∧
    getCallID U m.hdr = text "a84b4c76@pc33" ∧ getExpires U m.hdr = text "3600" ∧
    getAuthorization U m.hdr = .ok [(text "username", text "ä\"\\b,✓"), (text "qop", text "auth")] := by
  obtain ⟨m, r', h1, -, -, -, -, h2⟩ := C101_peer_request U 4096 (by decide) [lines (text "REGISTER sip:a SIP/2.0" :: fieldLines loginFields) ++ [10]]
    (6, "REGISTER") (by decide) (text "REGISTER") rfl (by decide +kernel) ⟨text "sip", text "a", [], [], []⟩ (text "sip:a") (by decide +kernel) (by decide +kernel)
    (2, "SIP/2.0") (by decide) (text "SIP/2.0") rfl (by decide +kernel) false false loginFields loginFields_ok [] (by decide +kernel) (by decide +kernel)
  obtain ⟨g1, g2, -, -, -, -, -, -, g3, -⟩ := C121_getters U m loginFields h2
  refine ⟨m, r', h1, g1.trans (by decide +kernel), g2.trans (by decide +kernel), ?_⟩
  rw [g3 (text "DIGEST ") someDigest (by decide +kernel) (by simp only [SameText]; decide +kernel) (by decide +kernel) (by simp [someDigest])
    someDigest_ok (by decide +kernel)]
  congr 1
  decide +kernel

/-! ## C122 -/

/-- C122: `Get` after `Set` and `Del`: only the argument named changes. -/
theorem C122_set_get_del (a : Args) (k v q : Bytes) :
    (a.set k v).get q = (if q = k then v else a.get q) ∧ (a.del k).get q = (if q = k then [] else a.get q) ∧
    (q ∈ (a.set k v).map Prod.fst ↔ q = k ∨ q ∈ a.map Prod.fst) ∧ (q ∈ (a.del k).map Prod.fst ↔ q ≠ k ∧ q ∈ a.map Prod.fst) := by
  refine ⟨?_, ?_, ?_, ?_⟩
  · rw [Args.get, Args.set, mget_mset]
    split <;> rfl
  · rw [Args.get, Args.get]
    have : mget (a.del k) q = if q = k then none else mget a q := by
      induction a with
      | nil => simp [Args.del, mget]
      | cons e a ih =>
        obtain ⟨k', v'⟩ := e
        rw [Args.del, List.filter_cons]
        by_cases hk : k' = k
        · rw [if_neg (by simp [hk])]
          rw [Args.del] at ih
          rw [ih]
          by_cases hq : q = k
          · simp [hq]
          · rw [if_neg hq, if_neg hq, mget, if_neg (fun h => hq (by rw [← h, hk]))]
        · rw [if_pos (by simp [hk]), mget]
          rw [Args.del] at ih
          rw [ih, mget]
          by_cases hq : k' = q
          · rw [if_pos hq, if_neg (fun h => hk (hq.trans h)), if_pos hq]
          · rw [if_neg hq, if_neg hq]
    rw [this]
    split <;> rfl
  · rw [Args.set, mset]
    split
    · next h =>
      simp only [List.any_eq_true, beq_iff_eq] at h
      obtain ⟨e, he, hek⟩ := h
      rw [List.map_map]
      have : (Prod.fst ∘ fun e : Bytes × Bytes => if e.1 = k then (k, v) else e) = Prod.fst := by
        funext e
        simp only [Function.comp]
        split
        · next h => exact h.symm
        · rfl
      rw [this]
      refine ⟨Or.inr, ?_⟩
      rintro (rfl | h)
      · exact hek ▸ List.mem_map_of_mem he
      · exact h
    · simp [or_comm]
  · simp only [Args.del, List.mem_map, List.mem_filter, decide_eq_true_eq]
    constructor
    · rintro ⟨e, ⟨h1, h2⟩, rfl⟩
      exact ⟨h2, e, h1, rfl⟩
    · rintro ⟨h, e, h1, rfl⟩
      exact ⟨e, ⟨h1, h⟩, rfl⟩

example : (Args.del someArgs (text "branch")).get (text "branch") = [] ∧ (Args.set someArgs (text "lr") (text "on")).get (text "lr") = text "on" :=
  ⟨(C122_set_get_del someArgs (text "branch") [] (text "branch")).2.1.trans (if_pos rfl),
    (C122_set_get_del someArgs (text "lr") (text "on") (text "lr")).1.trans (if_pos rfl)⟩

/-- C122: an argument deleted is not sent any more, and the others are as before. -/
theorem C122_deleted_not_sent (a o : Args) (h : ArgMap a) (k : Bytes) (ho : o.Perm (a.del k)) :
    ∃ m, parseArgs (semicolonString o) = .ok m ∧ ∀ q, m.get q = if q = k then [] else a.get q := by
  have hd : ArgMap (a.del k) := by
    refine ⟨?_, fun e he => h.keys e (List.mem_filter.1 he).1, fun e he => h.values e (List.mem_filter.1 he).1⟩
    exact List.Nodup.sublist (List.filter_sublist.map _) h.distinct
  obtain ⟨m, h1, h2⟩ := C76_args_round_trip (a.del k) o hd ho
  refine ⟨m, h1, fun q => ?_⟩
  rw [← (C122_set_get_del a k [] q).2.1, Args.get, Args.get, mget_perm hd.distinct h2]

example : ∃ m, parseArgs (text ";lr") = .ok m ∧ ∀ q, m.get q = if q = text "branch" then [] else Args.get someArgs q := by
  rw [show text ";lr" = semicolonString [(text "lr", [])] by decide +kernel]
  exact C122_deleted_not_sent someArgs _ someArgs_ok (text "branch") (by
    rw [show Args.del someArgs (text "branch") = [(text "lr", [])] by decide +kernel])

/-! ## C123 -/

/-- C123 (partial): the lines of `CRLFString`, in any order of the map, parse back to the same arguments, if none of them is
empty.  Missing: arguments without a value, see below. -/
theorem C123_crlf_round_trip_partial (a o : Args) (h : ArgMap a) (ho : o.Perm a) (hne : ∀ e ∈ a, e.2 ≠ []) :
    ∃ m, parseArgsPairs (crlfString o) = .ok m ∧ m.Perm a := by
  have hm := argMap_perm h ho
  refine ⟨o, ?_, ho⟩
  rw [parseArgsPairs, parseList_crlf o hm]
  have : o.map lineText = o.map itemText := by
    refine List.map_congr_left fun e he => ?_
    rw [lineText, itemText, if_neg (hne e (ho.mem_iff.1 he))]
  rw [this, pairLoop_items o [] (by simpa using hm.distinct) hm.keys hm.values]
  rfl

def loginArgs : Args := [(text "user", text "Jürgen"), (text "realm", text "a b")]

theorem loginArgs_ok : ArgMap loginArgs := by
  have hk : ∀ e ∈ loginArgs, (∀ b ∈ e.1, (0x20 ≤ b ∧ b ≤ 0x7e) ∧ b ≠ 0x22 ∧ b ≠ 0x2c ∧ b ≠ 0x3b) ∧ e.1.head? ≠ some 0x20 ∧
      e.1.getLast? ≠ some 0x20 ∧ e.1 ≠ [] ∧ (0x3d : UInt8) ∉ e.1 := by decide +kernel
  refine ⟨by decide +kernel, fun e he => ?_, fun e he => ?_⟩
  · obtain ⟨h1, h2, h3, h4, h5⟩ := hk e he
    exact ⟨argText_ascii h1 h2 h3, h4, h5⟩
  · simp only [loginArgs, List.mem_cons, List.not_mem_nil, or_false] at he
    rcases he with rfl | rfl
    · exact ⟨"Jürgen".toList, by decide +kernel, by decide +kernel, by simp [White]; decide +kernel, by simp [White]; decide +kernel⟩
    · exact argText_ascii (by simp only [Printable]; decide +kernel) (by decide +kernel) (by decide +kernel)

example : ∃ m, parseArgsPairs (text "realm=a b\r\nuser=Jürgen\r\n") = .ok m ∧ m.Perm loginArgs := by
  rw [show text "realm=a b\r\nuser=Jürgen\r\n" = crlfString [(text "realm", text "a b"), (text "user", text "Jürgen")] by decide +kernel]
  exact C123_crlf_round_trip_partial loginArgs _ loginArgs_ok (List.Perm.swap _ _ _) (by decide +kernel)

/-- C123 fails: the text `CRLFString` writes for any map with an argument without a value makes `ParseArgsPairs` panic. -/
theorem C123_crlf_empty_refuted (a o : Args) (h : ArgMap a) (ho : o.Perm a) (k : Bytes) (hk : (k, []) ∈ a) :
    parseArgsPairs (crlfString o) = .panic := by
  have hm := argMap_perm h ho
  refine (C77_args_panic_iff _).1.2 ⟨lineText (k, []), ?_, ?_⟩
  · rw [parseList_crlf o hm]
    exact List.mem_map.2 ⟨_, ho.mem_iff.2 hk, rfl⟩
  · exact ⟨k, [], by simp [lineText], (h.keys _ hk).noEq, .inl rfl⟩

example : parseArgsPairs (text "branch=z9hG4bK776\r\nlr=\r\n") = .panic := by
  rw [show text "branch=z9hG4bK776\r\nlr=\r\n" = crlfString someArgs by decide +kernel]
  exact C123_crlf_empty_refuted someArgs someArgs someArgs_ok (List.Perm.refl _) (text "lr") (by decide +kernel)

/-! ## C124 -/

/-- C124 fails: an object without a header map, such as the zero value, panics at the first header field of whatever message. -/
theorem C124_zero_value_refuted (U : Unicode) (s : Sip) (hs : s.headers = none) (size : Nat) (hsize : 2 ≤ size) (m : Message)
    (hst : m.start.Fits size) (ha : ∀ f ∈ m.fields, f.Fits) (hshort : ∀ l ∈ fieldLines m.fields, l.length < size) (hne : m.fields ≠ [])
    (r : Rd) (hr : r.Ok) (hcap : r.cap = size) (rest : Bytes) (hall : r.all = m.head ++ rest) : (parse U s r).1 = .panic := by
  subst hcap
  obtain ⟨s1, s2, s3, s0, s4, s5, -⟩ := start_line U r.cap m.start hst s
  obtain ⟨f, fs, hf⟩ := List.exists_cons_of_ne_nil hne
  have hls := field_lines r.cap m.start.line true m.fields ha hshort s1 s2 s3
  have hrun : runLines U true (((m.start.line ++ lineEnd true) :: fieldLines m.fields).map (trim crlf)) s = (.panic, s0) := by
    have hp : parseLine U true m.start.line s = (.ok (), s0) := s4
    rw [List.map_cons, trim_of_chars true s1, runLines, hp, hf, fieldLines, List.map_cons, List.flatten_cons, List.map_append,
      map_trim_lines (ha f (by rw [hf]; simp)), trimmed, List.cons_append]
    have : parseLine U false (fline f) s0 = (.panic, s0) := by
      show parseHeader U (fline f) s0 = _
      rw [parseHeader_fline U s0 f (ha f (by rw [hf]; simp)), s5, hs]
    simp only [runLines, this]
  obtain ⟨r1, -, -, -, -, -, g, -⟩ := lineLoop_lines U ([13, 10] ++ rest) ((m.start.line ++ lineEnd true) :: fieldLines m.fields) (r.all.length + 2 - ((m.start.line ++ lineEnd true) :: fieldLines m.fields).length) true [] 0
    s r hr (by rw [hall, Message.head, List.append_assoc]; rfl) hls
  have := g _ hrun
  have hlen : ((m.start.line ++ lineEnd true) :: fieldLines m.fields).length ≤ r.all.length + 2 := by
    have : ∀ ls : List Bytes, ls.length ≤ (lines ls).length := by
      intro ls
      induction ls with
      | nil => simp [lines]
      | cons l ls ih => simp [lines] at ih ⊢; omega
    have := this ((m.start.line ++ lineEnd true) :: fieldLines m.fields)
    rw [hall, Message.head]
    simp at this ⊢; omega
  rw [parse, show r.all.length + 2 = ((m.start.line ++ lineEnd true) :: fieldLines m.fields).length + (r.all.length + 2 -
    ((m.start.line ++ lineEnd true) :: fieldLines m.fields).length) by omega, this]

example (U : Unicode) : (parse U { Sip.new with headers := none } ⟨[], [(someMessage "hi" "2").wire], 4096, .eof⟩).1 = .panic := by
  obtain ⟨h1, h2, -⟩ := someMessage_ok "hi" "2" (by decide)
  exact C124_zero_value_refuted U _ rfl 4096 (by decide) (someMessage "hi" "2") h1 h2.fits h2.short (by simp [someMessage]) _
    ⟨by decide, by simp⟩ rfl (someMessage "hi" "2").body (by simp [Rd.all, Message.wire])

end Verif.Props
