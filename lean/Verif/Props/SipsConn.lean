import Verif.Props.SipsUri
import Verif.Lemmas.SipsConn
import Verif.Spec.SipsConn
/-!
# Properties of package `sips`: several messages on one connection and into one object (C105, C106, C114, C115)
-/
namespace Verif.Props
open Verif.Sips Verif.Str Verif.Spec.Sips

/-! ## C114 -/

/-- The first line is recovered. -/
def StartRead (s : Sip) : Start → Prop
  | .request e uri => s.isResponse = false ∧ s.method = e.1 ∧ s.version = 2 ∧ ∃ q, newSIPRequest uri = .ok q ∧ s.request = some q
  | .response code _ p => s.isResponse = true ∧ s.responseCode = code ∧ s.responseStatus = p ∧ s.version = 2

/-- The first line parsed into an object in any state. -/
theorem start_line (U : Unicode) (size : Nat) (st : Start) (hst : st.Fits size) (s : Sip) :
    (∀ b ∈ st.line, b ≠ 13 ∧ b ≠ 10) ∧ st.line ≠ [] ∧ st.line.length + 1 < size ∧
    ∃ s0, parseFirstLine U st.line s = (.ok (), s0) ∧ s0.headers = s.headers ∧
      match st with
      | .request e uri => ∃ q, newSIPRequest uri = .ok q ∧ s0 = { s with method := e.1, request := some q, version := 2 }
      | .response code _ p => s0 = { s with isResponse := true, version := 2, responseCode := code, responseStatus := p } := by
  have e2 : text "SIP/2.0" = b!"SIP/2.0" := by decide +kernel
  have c2 : ∀ b ∈ b!"SIP/2.0", b ≠ 13 ∧ b ≠ 10 := by decide
  cases st with
  | request e uri =>
    obtain ⟨he, hu, hv, hlen⟩ := hst
    have htab : ∀ e ∈ methods, (∀ b ∈ text e.2, b ≠ 0x20 ∧ b ≠ 13 ∧ b ≠ 10 ∧ b < 0x80) ∧ text e.2 ≠ [] ∧ (text e.2).length ≤ 9 ∧
        hasPrefix (text e.2) b!"SIP" = false := by decide +kernel
    obtain ⟨t1, t2, t3, t4⟩ := htab e he
    obtain ⟨q, hq⟩ := newSIPRequest_vp hv
    refine ⟨?_, by simp [Start.line], hlen, ?_⟩
    rotate_left
    · simp only [Start.line, e2]
      exact ⟨_, parseFirstLine_request U s (text e.2) uri b!"SIP/2.0" e.1 2 q (fun h => (t1 _ h).1 rfl)
      (fun h => (hu _ h).1 rfl) t4 ((C71_methods U e he).2 _ (fun b hb => (t1 b hb).2.2.2) rfl) hq (version2 U), rfl, q, hq, rfl⟩
    simp only [Start.line, e2]
    intro b hb
    rcases List.mem_append.1 hb with hb | hb
    · exact ⟨(t1 b hb).2.1, (t1 b hb).2.2.1⟩
    rw [List.mem_cons, List.mem_append, List.mem_cons] at hb
    rcases hb with rfl | hb | rfl | hb
    · decide
    · exact ⟨(hu b hb).2.1, (hu b hb).2.2⟩
    · decide
    · exact c2 b hb
  | response code d p =>
    obtain ⟨hd, hcode, hp, hlen⟩ := hst
    have hdig : ∀ b ∈ d, b ≠ 0x20 ∧ b ≠ 13 ∧ b ≠ 10 := by
      intro b hb
      have h1 := (hd.2.1 b hb).1
      rw [UInt8.le_iff_toNat_le] at h1
      refine ⟨?_, ?_, ?_⟩ <;> (rintro rfl; simp at h1)
    refine ⟨?_, by simp [Start.line], hlen, ?_⟩
    rotate_left
    · simp only [Start.line, e2]
      exact ⟨_, parseFirstLine_response U s b!"SIP/2.0" d p code 2 (by decide) (fun h => (hdig _ h).1 rfl)
      (by decide) (version2 U) (atoi_decimal hd hcode), rfl, rfl⟩
    simp only [Start.line, e2]
    intro b hb
    rcases List.mem_append.1 hb with hb | hb
    · exact c2 b hb
    rw [List.mem_cons, List.mem_append, List.mem_cons] at hb
    rcases hb with rfl | hb | rfl | hb
    · decide
    · exact (hdig b hb).2
    · decide
    · exact hp b hb

/-- A message at the head of what the reader delivers, parsed into an object that has read the header fields `fs0` before. -/
theorem receiveMessageInto (U : Unicode) (size : Nat) (hsize : 2 ≤ size) (r : Rd) (hr : r.Ok) (hcap : r.cap = size) (s1 : Sip) (h1 : Hdr)
    (fs0 : List HField) (hs1 : s1.headers = some h1) (hsh : Shows h1 (pairs fs0)) (m : Message)
    (hst : m.start.Fits size) (ha : ∀ f ∈ m.fields, f.Fits) (hshort : ∀ l ∈ fieldLines m.fields, l.length < size)
    (haddr : ∀ n ∈ [text "from", text "to", text "contact", text "via"], ∀ v, (fieldValues (fs0 ++ m.fields) n).head? = some v →
      ValuesPresent v)
    (d : Bytes) (n : Int) (hd : (fieldValues (fs0 ++ m.fields) (text "content-length")).head? = some d) (hat : atoi d = .ok n) (rest : Bytes)
    (hbody : r.final = .eof ∨ n ≤ (2 + rest.length : Nat)) (hall : r.all = m.head ++ rest) :
    ∃ s r' k h', parse U s1 r = (.ok (), s, r') ∧ (s1.isResponse = false ∨ (∃ c d p, m.start = .response c d p) → StartRead s m.start) ∧
      Received U s (fs0 ++ m.fields) ∧
      getContentLength U s.hdr = .ok n ∧ s.payload = 13 :: 10 :: rest.take k ∧ r'.all = rest.drop k ∧ (n ≤ 2 → k = 0) ∧
      r'.Ok ∧ r'.cap = size ∧ r'.final = r.final ∧ s.headers = some h' ∧ Shows h' (pairs (fs0 ++ m.fields)) ∧
      s.isResponse = (s1.isResponse || match m.start with | .request _ _ => false | .response _ _ _ => true) := by
  obtain ⟨s1', s2, s3, s0, s4, s5, s6⟩ := start_line U size m.start hst s1
  have hpairs : pairs fs0 ++ pairs m.fields = pairs (fs0 ++ m.fields) := by simp [pairs]
  have key : ∀ n, n.map lowerAscii = n → under' (pairs fs0 ++ pairs m.fields) n = fieldValues (fs0 ++ m.fields) n := by
    intro n hn
    rw [hpairs, ← fieldValues_eq, hn]
  have k1 := key (text "from") (by decide +kernel)
  have k2 := key (text "to") (by decide +kernel)
  have k3 := key (text "contact") (by decide +kernel)
  have k4 := key (text "via") (by decide +kernel)
  have k5 := key (text "cseq") (by decide +kernel)
  have k6 := key (text "content-length") (by decide +kernel)
  obtain ⟨h', last, c, f, t, v, k, r', g1, m1, m2, m3, m4, m5, g2, g3, g4, g5, g6⟩ := receiveFrom U size hsize r hr hcap m.start.line s1 s0 h1 (pairs fs0)
    hsh true true m.fields ha hshort
    (by
      intro n hn
      have hlow : ∀ n ∈ [text "from", text "to", text "contact", text "via"], n.map lowerAscii = n := by decide +kernel
      rw [key n (hlow n hn)]
      cases hv : (fieldValues (fs0 ++ m.fields) n).head? with
      | none => exact good_nil
      | some v => exact haddr n hn v hv)
    d n (by rw [k6]; exact hd) hat rest (by simpa [lineEnd] using hbody) (by rw [hall]; simp [Message.head, lineEnd])
    s4 (by rw [s5]; exact hs1) s1' s2 s3
  rw [k1] at g3; rw [k2] at g4; rw [k3] at g2; rw [k4] at g5
  have hget : ∀ n, (∀ b ∈ n, b < 0x80) →
      getHeader U h' n = fieldValues (fs0 ++ m.fields) n ∧ getFirstHeader U h' n = (fieldValues (fs0 ++ m.fields) n).head?.getD [] := by
    intro n hn
    have := g1.getHeader U n
    rw [toLower_ascii U hn, hpairs, fieldValues_eq] at this
    exact this
  refine ⟨_, r', k, h', g6, ?_, ⟨fun n hn => (hget n hn).1, fun n hn => (hget n hn).2, ⟨f, g3, rfl⟩, ⟨t, g4, rfl⟩, ⟨c, g2, rfl⟩, ⟨v, g5, rfl⟩, by rw [← k5]⟩,
    ?_, rfl, m1, fun h => m5 (by simpa [lineEnd] using h), m2, m3, m4, rfl, hpairs ▸ g1, ?_⟩
  · rcases m with ⟨_ | _, fs, b⟩
    · obtain ⟨q, hq, rfl⟩ := s6
      rintro (h | ⟨_, _, _, h⟩)
      · exact ⟨h, rfl, rfl, q, hq, rfl⟩
      · exact absurd h (by simp)
    · subst s6
      exact fun _ => ⟨rfl, rfl, rfl, rfl⟩
  · show getContentLength U h' = _
    rw [getContentLength, (hget _ (by decide)).2, ← show text "content-length" = b!"content-length" by decide +kernel, hd]
    exact hat
  · rcases m with ⟨_ | _, fs, b⟩
    · obtain ⟨q, hq, rfl⟩ := s6
      simp
    · subst s6
      simp

/-- A message at the head of what the reader delivers. -/
theorem receiveMessage (U : Unicode) (size : Nat) (hsize : 2 ≤ size) (r : Rd) (hr : r.Ok) (hcap : r.cap = size) (m : Message)
    (hst : m.start.Fits size) (ha : Acceptable size m.fields) (n : Nat) (hdecl : Declares m.fields n) (rest : Bytes)
    (hbody : r.final = .eof ∨ n ≤ 2 + rest.length) (hall : r.all = m.head ++ rest) :
    ∃ s r' k, parse U Sip.new r = (.ok (), s, r') ∧ StartRead s m.start ∧ Received U s m.fields ∧
      getContentLength U s.hdr = .ok (n : Int) ∧ s.payload = 13 :: 10 :: rest.take k ∧ r'.all = rest.drop k ∧ (n ≤ 2 → k = 0) ∧
      r'.Ok ∧ r'.cap = size ∧ r'.final = r.final := by
  obtain ⟨d, hd, hdec⟩ := hdecl
  have hn : n < 2 ^ 63 := by
    obtain ⟨d', n', h1, h2, h3⟩ := ha.length
    rw [hd, Option.some.injEq] at h1
    rw [← hdec.2.2.2, h1, h2.2.2.2]; exact h3
  obtain ⟨s, r', k, h', g1, g2, g3, g4, g5, g6, g7, g8, g9, g10, -⟩ := receiveMessageInto U size hsize r hr hcap Sip.new [] [] rfl shows_nil m hst ha.fits
    ha.short (by simpa using ha.addresses) d n (by simpa using hd) (atoi_decimal hdec hn) rest (hbody.imp_right fun h => by omega) hall
  exact ⟨s, r', k, g1, g2 (.inl rfl), by simpa using g3, g4, g5, g6, fun h => g7 (by omega), g8, g9, g10⟩

/-- What an object has recovered of a message. -/
structure Recovers (U : Unicode) (m : Message) (s : Sip) : Prop where
  start : StartRead s m.start
  fields : Received U s m.fields
  payload : s.payload = 13 :: 10 :: m.body

/-- Reading one message after another, each into a new object that recovers it. -/
inductive Delivers (U : Unicode) : Rd → List Message → Rd → Prop
  | done (r : Rd) : Delivers U r [] r
  | next {r r' r'' : Rd} {m : Message} {ms : List Message} (s : Sip) (h : parse U Sip.new r = (.ok (), s, r')) (hs : Recovers U m s)
      (t : Delivers U r' ms r'') : Delivers U r (m :: ms) r''

/-- C114 (partial): any number of messages without a body (content length 0) that follow each other on a connection are read one by
one, however they are cut into reads, and what follows the last of them is left for the next reader.  (Missing: messages with a
body, which need a read of their own: see `C114_one_per_read_partial` and `C114_together_refuted`.) -/
theorem C114_bodyless_partial (U : Unicode) (size : Nat) (hsize : 2 ≤ size) (ms : List Message)
    (hms : ∀ m ∈ ms, m.start.Fits size ∧ Acceptable size m.fields ∧ Declares m.fields 0 ∧ m.body = []) (rest : Bytes) :
    ∀ (r : Rd), r.Ok → r.cap = size → r.all = (ms.map Message.wire).flatten ++ rest →
    ∃ r', Delivers U r ms r' ∧ r'.all = rest := by
  induction ms with
  | nil => exact fun r _ _ h => ⟨r, .done r, by simpa using h⟩
  | cons m ms ih =>
    intro r hr hcap hall
    obtain ⟨h1, h2, h3, h4⟩ := hms m (by simp)
    obtain ⟨s, r', k, g1, g2, g3, -, g4, g5, g6, g7, g8, g9⟩ := receiveMessage U size hsize r hr hcap m h1 h2 0 h3
      ((ms.map Message.wire).flatten ++ rest) (.inr (by omega)) (by rw [hall]; simp [Message.wire, h4])
    have hk := g6 (by omega)
    subst hk
    obtain ⟨r'', i1, i3⟩ := ih (fun m hm => hms m (by simp [hm])) r' g7 g8 (by rw [g5]; rfl)
    exact ⟨r'', .next s g1 ⟨g2, g3, by rw [g4, h4]; rfl⟩ i1, i3⟩

/-- The lines of a message. -/
theorem head_lines (m : Message) (rest : Bytes) :
    m.head ++ rest = joinLines ((m.start.line ++ lineEnd true) :: fieldLines m.fields) ++ ([13] ++ 10 :: rest) := by
  rw [Message.head, List.append_assoc]; rfl

/-- A message that has arrived in one read together with `next`. -/
theorem receive_piece (U : Unicode) (size : Nat) (hsize : 2 ≤ size) (m : Message) (hst : m.start.Fits size) (ha : Acceptable size m.fields)
    (hdecl : Declares m.fields m.body.length) (next : Bytes) (hlen : (m.wire ++ next).length ≤ size) (hrest : (m.body ++ next).length ≤ 4096)
    (hb : (m.body = [] ∧ next = []) ∨ 3 ≤ m.body.length) (cs : List Bytes) (fin : Err) :
    ∃ s, parse U Sip.new ⟨[], (m.wire ++ next) :: cs, size, fin⟩ = (.ok (), s, ⟨[], cs, size, fin⟩) ∧ StartRead s m.start ∧
      Received U s m.fields ∧ s.payload = 13 :: 10 :: (m.body ++ next) := by
  have hw : m.wire ++ next = joinLines ((m.start.line ++ lineEnd true) :: fieldLines m.fields) ++ ([13] ++ 10 :: (m.body ++ next)) := by
    rw [Message.wire, List.append_assoc, head_lines]
  have h10 : (10 : UInt8) ∈ m.wire ++ next := by rw [hw]; simp
  rw [parse_load U Sip.new _ cs size fin h10 hlen]
  obtain ⟨s, r', k, g1, g2, g3, g3', g4, g5, g6, g7, g8, g9⟩ := receiveMessage U size hsize ⟨m.wire ++ next, cs, size, fin⟩
    ⟨by show 0 < size; omega, hlen⟩ rfl m hst ha _ hdecl (m.body ++ next ++ cs.flatten)
    (.inr (by simp; omega)) (by simp [Rd.all, Message.wire])
  obtain ⟨s1, s2, s3, -⟩ := start_line U size m.start hst Sip.new
  have g1' := g1
  rw [hw] at g1'
  obtain ⟨p1, p2, -⟩ := parse_buf U Sip.new s r' _ [13] (m.body ++ next) cs size fin (by simp)
    (field_lines size m.start.line true m.fields ha.fits ha.short s1 s2 s3) (by rw [← hw]; exact hlen) hrest _ g1' g3'
  have hr' : r' = ⟨[], cs, size, fin⟩ := by
    rcases hb with ⟨h1, h2⟩ | h
    · rw [p1 (by simp [h1]), h1, h2]; rfl
    · exact p2 (by simp; omega) (by simp; omega)
  subst hr'
  refine ⟨s, g1, g2, g3, ?_⟩
  rw [g4]
  have := List.take_append_drop k (m.body ++ next ++ cs.flatten)
  rw [← g5, show (⟨[], cs, size, fin⟩ : Rd).all = cs.flatten by simp [Rd.all]] at this
  rw [List.append_cancel_right this]

/-- C114 (partial): messages that each arrive in a read of their own are read one by one, bodies included, whatever follows.  A body
is not one or two bytes long, and each message fits the buffer. -/
theorem C114_one_per_read_partial (U : Unicode) (size : Nat) (hsize : 2 ≤ size) (fin : Err) (cs : List Bytes) (ms : List Message)
    (hms : ∀ m ∈ ms, m.start.Fits size ∧ Acceptable size m.fields ∧ Declares m.fields m.body.length ∧ m.wire.length ≤ size ∧
      (m.body = [] ∨ 3 ≤ m.body.length) ∧ m.body.length ≤ 4096) :
    Delivers U ⟨[], ms.map Message.wire ++ cs, size, fin⟩ ms ⟨[], cs, size, fin⟩ := by
  induction ms with
  | nil => exact .done _
  | cons m ms ih =>
    obtain ⟨h1, h2, h3, h4, h5, h6⟩ := hms m (by simp)
    have i1 := ih fun m hm => hms m (by simp [hm])
    obtain ⟨s, g1, g2, g3, g4⟩ := receive_piece U size hsize m h1 h2 h3 [] (by simpa using h4) (by simpa using h6)
      (h5.imp (fun h => ⟨h, rfl⟩) id) (ms.map Message.wire ++ cs) fin
    rw [List.append_nil] at g1 g4
    exact .next s g1 ⟨g2, g3, g4⟩ i1

/-- C114 fails: what arrives in the same read as a message with a body, after it, is taken for part of the body and lost for the
next reader, although the content length is right. -/
theorem C114_together_refuted (U : Unicode) (size : Nat) (hsize : 2 ≤ size) (m : Message) (hst : m.start.Fits size)
    (ha : Acceptable size m.fields) (hdecl : Declares m.fields m.body.length) (next : Bytes) (hlen : (m.wire ++ next).length ≤ size)
    (hrest : (m.body ++ next).length ≤ 4096) (hb : 3 ≤ m.body.length) (cs : List Bytes) (fin : Err) :
    ∃ s, parse U Sip.new ⟨[], (m.wire ++ next) :: cs, size, fin⟩ = (.ok (), s, ⟨[], cs, size, fin⟩) ∧
      s.payload = 13 :: 10 :: (m.body ++ next) :=
  let ⟨s, h1, _, _, h2⟩ := receive_piece U size hsize m hst ha hdecl next hlen hrest (.inr hb) cs fin
  ⟨s, h1, h2⟩

/-- C114 fails: a body of one or two bytes is not read at all, and stands before the next message, however the input is cut. -/
theorem C114_short_body_refuted (U : Unicode) (size : Nat) (hsize : 2 ≤ size) (m : Message) (hst : m.start.Fits size)
    (ha : Acceptable size m.fields) (hdecl : Declares m.fields m.body.length) (rest : Bytes) (hb : m.body.length ≤ 2) (r : Rd)
    (hr : r.Ok) (hcap : r.cap = size) (hall : r.all = m.wire ++ rest) :
    ∃ s r', parse U Sip.new r = (.ok (), s, r') ∧ s.payload = [13, 10] ∧ r'.all = m.body ++ rest := by
  obtain ⟨s, r', k, g1, g2, g3, g3', g4, g5, g6, -⟩ := receiveMessage U size hsize r hr hcap m hst ha _ hdecl (m.body ++ rest)
    (.inr (by simp; omega)) (by rw [hall]; simp [Message.wire])
  have hk := g6 hb
  subst hk
  exact ⟨s, r', g1, by simpa using g4, by simpa using g5⟩

/-- The messages of the examples. -/
def someMessage (body : String) (n : String) : Message :=
  ⟨.request (1, "INVITE") (text "sip:bob@biloxi.com"),
    [⟨text "To", 0, 1, text "<sip:bob@biloxi.com>;tag=1", 0, true, []⟩, ⟨text "Content-Length", 0, 1, text n, 0, true, []⟩], text body⟩

theorem someMessage_ok (b n : String) (h : (b, n) ∈ [("", "0"), ("hi", "2"), ("hello", "5")]) :
    (someMessage b n).start.Fits 4096 ∧ Acceptable 4096 (someMessage b n).fields ∧ Declares (someMessage b n).fields (someMessage b n).body.length := by
  refine ⟨⟨by decide, by decide +kernel, valuesPresent_of (by decide +kernel), by decide +kernel⟩, ?_⟩
  have hf : ∀ f ∈ (someMessage "" n).fields, (f.name ≠ [] ∧ ∀ b ∈ f.name, 0x21 ≤ b ∧ b ≤ 0x7e ∧ b ≠ 0x3a) ∧
      ((∀ b ∈ f.value, b ≠ 13 ∧ b ≠ 10) ∧ f.value.head? ≠ some 0x20 ∧ f.value.getLast? ≠ some 0x20) ∧ f.conts.length = 0 := by
    simp only [List.mem_cons, Prod.mk.injEq, List.not_mem_nil, or_false] at h
    rcases h with ⟨rfl, rfl⟩ | ⟨rfl, rfl⟩ | ⟨rfl, rfl⟩ <;> decide +kernel
  have ha : ∀ m ∈ [text "from", text "to", text "contact", text "via"], ∀ v ∈ (fieldValues (someMessage "" n).fields m).head?,
      valuesPresentB v = true := by
    simp only [List.mem_cons, Prod.mk.injEq, List.not_mem_nil, or_false] at h
    rcases h with ⟨rfl, rfl⟩ | ⟨rfl, rfl⟩ | ⟨rfl, rfl⟩ <;> decide +kernel
  have hs : ∀ l ∈ fieldLines (someMessage "" n).fields, l.length < 4096 := by
    simp only [List.mem_cons, Prod.mk.injEq, List.not_mem_nil, or_false] at h
    rcases h with ⟨rfl, rfl⟩ | ⟨rfl, rfl⟩ | ⟨rfl, rfl⟩ <;> decide +kernel
  have hd : (fieldValues (someMessage "" n).fields (text "content-length")).head? = some (text n) ∧ IsDecimal (text n) (text b).length ∧ (text b).length < 2 ^ 63 := by
    simp only [List.mem_cons, Prod.mk.injEq, List.not_mem_nil, or_false] at h
    rcases h with ⟨rfl, rfl⟩ | ⟨rfl, rfl⟩ | ⟨rfl, rfl⟩ <;> refine ⟨by decide +kernel, by simp only [IsDecimal]; decide +kernel, by decide +kernel⟩
  exact ⟨⟨fun f hm => ⟨(hf f hm).1, ⟨(hf f hm).2.1.1, (hf f hm).2.1.2.1, (hf f hm).2.1.2.2⟩,
      fun h => absurd (List.length_eq_zero_iff.1 (hf f hm).2.2) h, by rw [List.length_eq_zero_iff.1 (hf f hm).2.2]; simp⟩,
    hs, fun m hm v hv => valuesPresent_of (ha m hm v hv), _, _, hd⟩, _, hd.1, hd.2.1⟩

/-- Two messages without body, cut in the middle of a line, and then a keep-alive. -/
example (U : Unicode) : ∃ r', Delivers U ⟨[], [((someMessage "" "0").wire ++ (someMessage "" "0").wire).take 30,
      ((someMessage "" "0").wire ++ (someMessage "" "0").wire).drop 30, [13, 10, 13, 10]], 4096, .other⟩
      [someMessage "" "0", someMessage "" "0"] r' ∧ r'.all = [13, 10, 13, 10] :=
  C114_bodyless_partial U 4096 (by decide) [someMessage "" "0", someMessage "" "0"]
    (by
      obtain ⟨h1, h2, h3⟩ := someMessage_ok "" "0" (by decide)
      intro m hm
      have : m = someMessage "" "0" := by simpa using hm
      subst this
      rw [show (someMessage "" "0").body = [] by decide +kernel] at h3
      exact ⟨h1, h2, h3, by decide +kernel⟩) [13, 10, 13, 10] _ ⟨by decide, by decide⟩ rfl (by
      simp only [Rd.all, List.flatten_cons, List.flatten_nil, List.nil_append, List.append_nil, List.map_cons, List.map_nil, ← List.append_assoc, List.take_append_drop])

/-- Two messages in two reads. -/
example (U : Unicode) : Delivers U ⟨[], [(someMessage "hello" "5").wire, (someMessage "" "0").wire], 4096, .other⟩
    [someMessage "hello" "5", someMessage "" "0"] ⟨[], [], 4096, .other⟩ :=
  C114_one_per_read_partial U 4096 (by decide) .other [] [someMessage "hello" "5", someMessage "" "0"] (by
    obtain ⟨h1, h2, h3⟩ := someMessage_ok "hello" "5" (by decide)
    obtain ⟨g1, g2, g3⟩ := someMessage_ok "" "0" (by decide)
    intro m hm
    simp only [List.mem_cons, List.not_mem_nil, or_false] at hm
    rcases hm with rfl | rfl
    · exact ⟨h1, h2, h3, by decide +kernel, .inr (by decide +kernel), by decide +kernel⟩
    · exact ⟨g1, g2, g3, by decide +kernel, .inl (by decide +kernel), by decide +kernel⟩)

/-- The same two messages in one read: one message with a payload that holds the other. -/
example (U : Unicode) : ∃ s, parse U Sip.new ⟨[], [(someMessage "hello" "5").wire ++ (someMessage "" "0").wire], 4096, .other⟩ =
      (.ok (), s, ⟨[], [], 4096, .other⟩) ∧ s.payload = 13 :: 10 :: (text "hello" ++ (someMessage "" "0").wire) :=
  let ⟨h1, h2, h3⟩ := someMessage_ok "hello" "5" (by decide)
  C114_together_refuted U 4096 (by decide) (someMessage "hello" "5") h1 h2 h3 _ (by decide +kernel) (by decide +kernel) (by decide +kernel) [] .other

/-- A body of two bytes. -/
example (U : Unicode) : ∃ s r', parse U Sip.new ⟨[], [(someMessage "hi" "2").wire ++ (someMessage "" "0").wire], 4096, .eof⟩ = (.ok (), s, r') ∧
      s.payload = [13, 10] ∧ r'.all = text "hi" ++ (someMessage "" "0").wire :=
  let ⟨h1, h2, h3⟩ := someMessage_ok "hi" "2" (by decide)
  C114_short_body_refuted U 4096 (by decide) (someMessage "hi" "2") h1 h2 h3 _ (by decide +kernel) _ ⟨by decide, by decide⟩ rfl (by simp [Rd.all])

/-! ## C105, C106 -/

/-- C105 (partial): a second message parsed into the same object is recognised with its start line, except for a request after a
response; the headers are those of both messages, those of the first one before those of the second, so every header that the
first message did not have is right.  (Missing: the others, and requests after responses, see `C105_reuse_refuted`.) -/
theorem C105_reuse_partial (U : Unicode) (size : Nat) (hsize : 2 ≤ size) (m1 m2 : Message) (h1 : m1.start.Fits size) (h2 : m2.start.Fits size)
    (a1 : Acceptable size m1.fields) (a2 : Acceptable size m2.fields) (r1 r2 : Rd) (ok1 : r1.Ok) (ok2 : r2.Ok) (c1 : r1.cap = size) (c2 : r2.cap = size)
    (f1 : r1.final = .eof) (f2 : r2.final = .eof) (all1 : r1.all = m1.wire) (all2 : r2.all = m2.wire)
    (hkind : (∃ e u, m1.start = .request e u) ∨ ∃ c d p, m2.start = .response c d p) :
    ∃ s s' r1' r2', parse U Sip.new r1 = (.ok (), s, r1') ∧ parse U s r2 = (.ok (), s', r2') ∧ StartRead s' m2.start ∧
      Received U s' (m1.fields ++ m2.fields) ∧ ∀ n, (∀ b ∈ n, b < 0x80) → fieldValues m1.fields n = [] → getHeader U s'.hdr n = fieldValues m2.fields n := by
  obtain ⟨d, n, hd, hdec, hn⟩ := a1.length
  obtain ⟨s, r1', k, h', g1, -, -, -, -, -, -, -, -, -, g2, g3, g4⟩ := receiveMessageInto U size hsize r1 ok1 c1 Sip.new [] [] rfl shows_nil m1 h1 a1.fits
    a1.short (by simpa using a1.addresses) d n (by simpa using hd) (atoi_decimal hdec hn) m1.body (.inl f1) all1
  have happ : ∀ n, fieldValues (m1.fields ++ m2.fields) n = fieldValues m1.fields n ++ fieldValues m2.fields n := by
    intro n; simp [fieldValues]
  have haddr : ∀ n ∈ [text "from", text "to", text "contact", text "via"], ∀ v, (fieldValues (m1.fields ++ m2.fields) n).head? = some v →
      ValuesPresent v := by
    intro n hn v hv
    rw [happ] at hv
    cases he : fieldValues m1.fields n with
    | nil => rw [he] at hv; exact a2.addresses n hn v hv
    | cons x xs => rw [he] at hv; exact a1.addresses n hn v (by rw [he]; exact hv)
  obtain ⟨s', r2', k', h'', i1, i2, i3, -⟩ := receiveMessageInto U size hsize r2 ok2 c2 s h' ([] ++ m1.fields) g2 g3 m2 h2 a2.fits a2.short
    (by simpa using haddr) d n (by
      rw [List.nil_append, happ]
      cases he : fieldValues m1.fields (text "content-length") with
      | nil => rw [he] at hd; simp at hd
      | cons x xs => rw [he] at hd; exact hd) (atoi_decimal hdec hn) m2.body (.inl f2) all2
  refine ⟨s, s', r1', r2', g1, i1, i2 ?_, i3, fun n hn he => ?_⟩
  · rcases hkind with ⟨e, u, hk⟩ | h
    · left; rw [g4, hk]; rfl
    · exact .inr h
  · have := i3.all n hn
    rw [List.nil_append, happ, he] at this
    exact this

/-- C106 (partial): if every line fits the reader, the message is accepted, however it is cut; a line of the size of the buffer, LF
included, is still accepted. -/
theorem C106_short_lines_partial (U : Unicode) (size : Nat) (hsize : 2 ≤ size) (r : Rd) (hr : r.Ok) (hcap : r.cap = size) (m : Message)
    (hst : m.start.Fits size) (ha : Acceptable size m.fields) (hdecl : Declares m.fields m.body.length) (rest : Bytes)
    (hall : r.all = m.wire ++ rest) : (parse U Sip.new r).1 = .ok () := by
  obtain ⟨s, r', k, g1, -⟩ := receiveMessage U size hsize r hr hcap m hst ha _ hdecl (m.body ++ rest)
    (.inr (by simp; omega)) (by rw [hall]; simp [Message.wire])
  rw [g1]

/-- An INVITE and then a response with another header, parsed into the same object. -/
example (U : Unicode) : ∃ s s' r1' r2', parse U Sip.new ⟨[], [(someMessage "hello" "5").wire], 4096, .eof⟩ = (.ok (), s, r1') ∧
    parse U s ⟨[], [(someMessage "hi" "2").wire], 4096, .eof⟩ = (.ok (), s', r2') ∧ StartRead s' (someMessage "hi" "2").start ∧
    Received U s' ((someMessage "hello" "5").fields ++ (someMessage "hi" "2").fields) ∧
    ∀ n, (∀ b ∈ n, b < 0x80) → fieldValues (someMessage "hello" "5").fields n = [] → getHeader U s'.hdr n = fieldValues (someMessage "hi" "2").fields n :=
  let ⟨h1, h2, _⟩ := someMessage_ok "hello" "5" (by decide)
  let ⟨g1, g2, _⟩ := someMessage_ok "hi" "2" (by decide)
  C105_reuse_partial U 4096 (by decide) _ _ h1 g1 h2 g2 _ _ ⟨by decide, by decide⟩ ⟨by decide, by decide⟩ rfl rfl rfl rfl (by simp [Rd.all]) (by simp [Rd.all])
    (.inl ⟨_, _, rfl⟩)

example (U : Unicode) : (parse U Sip.new ⟨[], [(someMessage "hello" "5").wire], 4096, .other⟩).1 = .ok () :=
  let ⟨h1, h2, h3⟩ := someMessage_ok "hello" "5" (by decide)
  C106_short_lines_partial U 4096 (by decide) _ ⟨by decide, by decide⟩ rfl _ h1 h2 h3 [] (by simp [Rd.all])

/-! ## C115 -/

/-- Lines that are not blank. -/
theorem noBlank_lines (ls : List Bytes) (h : ∀ l ∈ ls, (10 : UInt8) ∉ l ∧ ∃ c ∈ l, c ≠ 13) : ¬ HasBlank (joinLines ls) := by
  induction ls with
  | nil =>
    rintro ⟨a, cr, b, h1, -⟩
    have := congrArg List.length h1
    simp at this
  | cons l ls ih =>
    obtain ⟨h1, x, hx, h2⟩ := h l (by simp)
    have ih := ih fun m hm => h m (by simp [hm])
    rintro ⟨a, cr, b, e, hcr, ha⟩
    have hc10 : (10 : UInt8) ∉ cr := fun hc => by simpa using hcr _ hc
    rw [joinLines_cons] at e
    have e : l ++ 10 :: joinLines ls = a ++ cr ++ 10 :: b := by simpa using e
    rcases ha with rfl | ⟨a', rfl⟩
    · obtain ⟨rfl, -⟩ := first_unique e h1 (by simpa using hc10)
      exact h2 (hcr x (by simpa using hx))
    · by_cases h10 : (10 : UInt8) ∈ a'
      · obtain ⟨y, z, rfl, hy, -⟩ := index_split h10
        obtain ⟨rfl, e2⟩ := first_unique (u := joinLines ls) (v := z ++ [10] ++ cr ++ 10 :: b) (by simpa using e) h1 hy
        exact ih ⟨z ++ [10], cr, b, e2, hcr, .inr ⟨z, rfl⟩⟩
      · obtain ⟨rfl, e2⟩ := first_unique (u := joinLines ls) (v := cr ++ 10 :: b) (by simpa using e) h1 h10
        exact ih ⟨[], cr, b, by simpa using e2, hcr, .inl rfl⟩

/-- On a connection that stays open, nothing is returned before a blank line has arrived. -/
theorem lineLoop_blank (U : Unicode) : ∀ (fuel : Nat) (first : Bool) (buf : Bytes) (off : Nat) (s s' : Sip) (r r' : Rd) (p : Bytes × Nat),
    r.Ok → r.final ≠ .eof → lineLoop U fuel first buf off s r = (.ok p, s', r') → HasBlank r.all := by
  intro fuel
  induction fuel with
  | zero => intro first buf off s s' r r' p _ _ h; rw [lineLoop] at h; simp at h
  | succ fuel ih =>
    intro first buf off s s' r r' p hr hf h
    obtain ⟨l, e, r1, h1, h2, h3, h4, h5, h6⟩ := readSlice_cases 10 r hr
    rw [lineLoop_step U _ _ _ _ _ _ _ _ _ h1] at h
    rcases h6 with ⟨x, rfl, g1, rfl, g2⟩ | ⟨g1, g2, rfl⟩ | ⟨g1, g2, rfl, g3⟩
    · rw [if_neg (by simp), if_neg (by simp), trim_lf] at h
      split at h
      · rename_i ht
        have ht : trim crlf x = [] := List.length_eq_zero_iff.1 ht
        refine ⟨[], x, r1.all, by rw [h2]; simp, fun c hc => ?_, .inl rfl⟩
        have := (trim_eq_nil_iff _ _).1 ht c hc
        simp only [crlf, Bool.or_eq_true, beq_iff_eq] at this
        rcases this with h | rfl
        · exact h
        · exact absurd hc g1
      · rcases hp : parseLine U first (trim crlf x) s with ⟨_ | e | _ | _, s2⟩ <;> rw [hp] at h
        · obtain ⟨a, cr, b, i1, i2, i3⟩ := ih _ _ _ _ _ _ _ _ h3 (by rw [h5]; exact hf) h
          refine ⟨x ++ [10] ++ a, cr, b, by rw [h2, i1]; simp, i2, .inr ?_⟩
          rcases i3 with rfl | ⟨a', rfl⟩
          · exact ⟨x, by simp⟩
          · exact ⟨x ++ [10] ++ a', by simp⟩
        all_goals simp at h
    · rw [if_pos (by simp)] at h; simp at h
    · rw [if_pos ⟨rfl, by simpa using hf⟩] at h; simp at h

theorem parse_blank (U : Unicode) (s : Sip) (r : Rd) (hr : r.Ok) (hf : r.final ≠ .eof) (h : (parse U s r).1 = .ok ()) : HasBlank r.all := by
  rw [parse] at h
  rcases hl : lineLoop U (r.all.length + 2) true [] 0 s r with ⟨p | e | _ | _, s', r'⟩ <;> rw [hl] at h
  · exact lineLoop_blank U _ _ _ _ _ _ _ _ _ hr hf hl
  all_goals simp at h

/-- The lines of a header entry. -/
def entryLines (e : Bytes × List Bytes) : List Bytes :=
  match e.2 with
  | [] => []
  | v :: vs => (e.1 ++ (0x3a :: 0x20 :: (v ++ [13]))) :: vs.map fun v => 0x20 :: (v ++ [13])

theorem entry_lines (es : Hdr) (h : ∀ e ∈ es, e.2 ≠ []) :
    (es.map fun e => e.1 ++ text ":" ++ (e.2.map fun v => text " " ++ v ++ text "\r\n").flatten).flatten = joinLines (es.map entryLines).flatten := by
  have e1 : text ":" = [0x3a] := by decide +kernel
  have e2 : text " " = [0x20] := by decide +kernel
  have e3 : text "\r\n" = [13, 10] := by decide +kernel
  have hj : ∀ a b : List Bytes, joinLines (a ++ b) = joinLines a ++ joinLines b := by intro a b; simp [joinLines]
  have hv : ∀ vs : List Bytes, (vs.map fun v => text " " ++ v ++ text "\r\n").flatten = joinLines (vs.map fun v => 0x20 :: (v ++ [13])) := by
    intro vs
    induction vs with
    | nil => rfl
    | cons v vs ih => rw [List.map_cons, List.flatten_cons, ih, List.map_cons, joinLines_cons, e2, e3]; simp
  induction es with
  | nil => rfl
  | cons e es ih =>
    rw [List.map_cons, List.flatten_cons, ih fun e he => h e (by simp [he]), List.map_cons, List.flatten_cons, hj]
    congr 1
    obtain ⟨k, _ | ⟨v, vs⟩⟩ := e
    · exact absurd rfl (h (k, []) (by simp))
    · rw [entryLines, hv, List.map_cons, joinLines_cons, joinLines_cons, e1]; simp

theorem lookup_mem (l : List (Int × Bytes)) (k : Int) (v : Bytes) (h : l.lookup k = some v) : (k, v) ∈ l := by
  induction l with
  | nil => simp at h
  | cons e l ih =>
    rw [List.lookup_cons] at h
    by_cases he : k == e.1
    · rw [he] at h
      have he := beq_iff_eq.1 he
      subst he
      rw [← Option.some.inj h]
      exact List.mem_cons_self ..
    · rw [show (k == e.1) = false by simpa using he] at h
      exact List.mem_cons_of_mem _ (ih h)

/-- The first line holds a space and no LF. -/
theorem first_line (s : Sip) (l : Bytes) (hreq : s.isResponse = true ∨ ∃ q, s.request = some q ∧ (10 : UInt8) ∉ q.bytes)
    (h : firstLineBytes s = .ok l) : (10 : UInt8) ∉ l ∧ 0x20 ∈ l := by
  have hv : (10 : UInt8) ∉ versionString s.version := by rw [versionString]; split <;> decide
  rw [firstLineBytes] at h
  by_cases hr : s.isResponse
  · rw [if_pos hr, Res.ok.injEq] at h
    subst h
    have ht : (10 : UInt8) ∉ statusText s.responseCode := by
      rw [statusText]
      cases hs : statusTexts.lookup s.responseCode with
      | none => simp
      | some t =>
        have htab : ∀ e ∈ statusTexts, (10 : UInt8) ∉ e.2 := by decide
        exact htab _ (lookup_mem _ _ _ hs)
    refine ⟨?_, by simp⟩
    simp only [List.mem_append, not_or]
    exact ⟨⟨⟨⟨hv, by decide⟩, fun h => by simpa using itoa_chars _ _ h⟩, by decide⟩, ht⟩
  · obtain ⟨q, hq, h10⟩ := hreq.resolve_left hr
    rw [if_neg hr, hq, Res.ok.injEq] at h
    subst h
    have hm : (10 : UInt8) ∉ methodString s.method := by rw [methodString.eq_def]; split <;> decide
    refine ⟨?_, by simp⟩
    simp only [List.mem_append, not_or]
    exact ⟨⟨⟨⟨hm, by decide⟩, h10⟩, by decide⟩, hv⟩

/-- What `Bytes` writes, in lines. -/
theorem bytes_lines (U : Unicode) (s s' : Sip) (h : Hdr) (hs : s.headers = some h)
    (hh : ∀ e ∈ h, e.2 ≠ [] ∧ (10 : UInt8) ∉ e.1 ∧ ∀ v ∈ e.2, (10 : UInt8) ∉ v)
    (hreq : s.isResponse = true ∨ ∃ q, s.request = some q ∧ (10 : UInt8) ∉ q.bytes)
    (order : Hdr → Hdr) (ho : ∀ x, (order x).Perm x) (w : Bytes) (hb : s.bytes U order = (.ok w, s')) :
    ∃ ls, ls ≠ [] ∧ w = joinLines ls ++ (if s.payload = [] then [] else 13 :: 10 :: s.payload) ∧ ∀ l ∈ ls, (10 : UInt8) ∉ l ∧ ∃ c ∈ l, c ≠ 13 := by
  rw [Sip.bytes, hs] at hb
  cases hl : firstLineBytes s with
  | ok l =>
    rw [hl] at hb
    simp only [Prod.mk.injEq, Res.ok.injEq] at hb
    obtain ⟨rfl, -⟩ := hb
    obtain ⟨l1, l2⟩ := first_line s l hreq hl
    have hset : setContentLength U h s.payload.length = mset h b!"content-length" [itoa s.payload.length] := by
      rw [setContentLength, setFirstHeader, lower_cl]
    have hes : ∀ e ∈ order (setContentLength U h s.payload.length), e.2 ≠ [] ∧ (10 : UInt8) ∉ e.1 ∧ ∀ v ∈ e.2, (10 : UInt8) ∉ v := by
      intro e he
      rw [(ho _).mem_iff, hset, mem_mset_iff] at he
      rcases he with rfl | ⟨he, -⟩
      · refine ⟨by simp, show (10 : UInt8) ∉ b!"content-length" by decide, fun v hv => ?_⟩
        have : v = itoa s.payload.length := by simpa using hv
        subst this
        exact fun h => by simpa using itoa_chars _ _ h
      · exact hh e he
    have hcr : text "\r\n" = [13, 10] := by decide +kernel
    have hj := entry_lines (order (setContentLength U h s.payload.length)) fun e he => (hes e he).1
    refine ⟨(l ++ [13]) :: ((order (setContentLength U h s.payload.length)).map entryLines).flatten, by simp, ?_, ?_⟩
    · rw [hcr, show text ":" = b!":" by decide +kernel, show text " " = b!" " by decide +kernel] at hj
      have e4 := (show hdrBytes (order (setContentLength U h s.payload.length)) = _ from rfl).trans hj
      rw [e4, joinLines_cons]
      by_cases hp : s.payload = []
      · simp [hp]
      · simp [hp]
    · intro x hx
      rcases List.mem_cons.1 hx with rfl | hx
      · exact ⟨by simpa using l1, 0x20, by simp [l2], by decide⟩
      rw [List.mem_flatten] at hx
      obtain ⟨y, hy, hx⟩ := hx
      obtain ⟨e, he, rfl⟩ := List.mem_map.1 hy
      obtain ⟨k, _ | ⟨v, vs⟩⟩ := e
      · simp [entryLines] at hx
      obtain ⟨-, m2, m3⟩ := hes _ he
      simp only [entryLines, List.mem_cons, List.mem_map] at hx
      rcases hx with rfl | ⟨u, hu, rfl⟩
      · have := m3 v (by simp)
        exact ⟨by simp [m2, this], 0x20, by simp, by decide⟩
      · have := m3 u (by simp [hu])
        exact ⟨by simp [this], 0x20, by simp, by decide⟩
  | err e => rw [hl] at hb; simp at hb
  | panic => rw [hl] at hb; simp at hb
  | diverge => rw [hl] at hb; simp at hb

/-- C115 fails: a message without a payload is written without the blank line that ends the header section, so on a connection that
stays open `Parse` never returns it. -/
theorem C115_no_payload_refuted (U : Unicode) (s s' : Sip) (h : Hdr) (hs : s.headers = some h)
    (hh : ∀ e ∈ h, e.2 ≠ [] ∧ (10 : UInt8) ∉ e.1 ∧ ∀ v ∈ e.2, (10 : UInt8) ∉ v)
    (hreq : s.isResponse = true ∨ ∃ q, s.request = some q ∧ (10 : UInt8) ∉ q.bytes) (hp : s.payload = [])
    (order : Hdr → Hdr) (ho : ∀ x, (order x).Perm x) (w : Bytes) (hb : s.bytes U order = (.ok w, s')) :
    ¬ HasBlank w ∧ ∀ (s0 : Sip) (r : Rd), r.Ok → r.all = w → r.final ≠ .eof → (parse U s0 r).1 ≠ .ok () := by
  obtain ⟨ls, -, hw, hls⟩ := bytes_lines U s s' h hs hh hreq order ho w hb
  rw [if_pos hp, List.append_nil] at hw
  have hno : ¬ HasBlank w := by rw [hw]; exact noBlank_lines ls hls
  exact ⟨hno, fun s0 r hr hall hf hok => hno (hall ▸ parse_blank U s0 r hr hf hok)⟩

/-- C115 (partial): with a payload, the header section ends with a blank line, the first one, and the payload follows it. -/
theorem C115_payload_partial (U : Unicode) (s s' : Sip) (h : Hdr) (hs : s.headers = some h)
    (hh : ∀ e ∈ h, e.2 ≠ [] ∧ (10 : UInt8) ∉ e.1 ∧ ∀ v ∈ e.2, (10 : UInt8) ∉ v)
    (hreq : s.isResponse = true ∨ ∃ q, s.request = some q ∧ (10 : UInt8) ∉ q.bytes) (hp : s.payload ≠ [])
    (order : Hdr → Hdr) (ho : ∀ x, (order x).Perm x) (w : Bytes) (hb : s.bytes U order = (.ok w, s')) :
    ∃ a, w = a ++ [10] ++ 13 :: 10 :: s.payload ∧ ¬ HasBlank (a ++ [10]) := by
  obtain ⟨ls, hne, hw, hls⟩ := bytes_lines U s s' h hs hh hreq order ho w hb
  rw [if_neg hp] at hw
  have hend : ∃ a, joinLines ls = a ++ [10] := by
    rw [← List.dropLast_concat_getLast hne]
    exact ⟨joinLines ls.dropLast ++ ls.getLast hne, by simp [joinLines]⟩
  obtain ⟨a, ha⟩ := hend
  exact ⟨a, by rw [hw, ha], ha ▸ noBlank_lines ls hls⟩

/-- The messages of the examples: an ACK and an OK with a body. -/
def someAck : Sip := makeRequest 2 (some ⟨text "sip", text "bob", text "biloxi.com", [], []⟩)
  (some [(text "call-id", [text "a84b4c76e66710"]), (text "via", [text "SIP/2.0/TCP a", text "SIP/2.0/TCP b"])]) []

theorem someAck_bytes : someAck.bytes plainU id = (.ok (text
    "ACK sip:bob@biloxi.com SIP/2.0\r\ncall-id: a84b4c76e66710\r\nvia: SIP/2.0/TCP a\r\n SIP/2.0/TCP b\r\ncontent-length: 0\r\n"),
    (someAck.bytes plainU id).2) := by decide +kernel

example : ¬ HasBlank (text
    "ACK sip:bob@biloxi.com SIP/2.0\r\ncall-id: a84b4c76e66710\r\nvia: SIP/2.0/TCP a\r\n SIP/2.0/TCP b\r\ncontent-length: 0\r\n") :=
  (C115_no_payload_refuted plainU someAck _ _ rfl (by decide +kernel) (.inr ⟨_, rfl, by decide +kernel⟩) rfl id (fun _ => .refl _) _
    someAck_bytes).1

example : ∃ a, text "SIP/2.0 200 OK\r\ncontent-length: 3\r\n\r\nabc" = a ++ [10] ++ 13 :: 10 :: (someOk "content-length").payload ∧ ¬ HasBlank (a ++ [10]) :=
  C115_payload_partial plainU (someOk "content-length") ((someOk "content-length").bytes plainU id).2 [(text "content-length", [text "1024"])]
    (by decide +kernel) (by decide +kernel) (.inl (by decide +kernel)) (by decide +kernel) id (fun _ => .refl _)
    (text "SIP/2.0 200 OK\r\ncontent-length: 3\r\n\r\nabc") (by decide +kernel)

end Verif.Props
