import Verif.Props.SipsMap
import Verif.Props.SipsAddr
import Verif.Props.SipsLength
import Verif.Props.SipsUri
import Verif.Props.Amf3
import Verif.Props.AmfMeta
/-!
# What does hold of properties that are refuted elsewhere (C33, C75, C111, C113, C118, C119, C124, C125, C127)
-/
namespace Verif.Props
open Verif.Sips Verif.Str Verif.Spec.Sips

/-! ## C33 -/

section
open Verif.Amf Verif.Spec.Amf3

/-- C33 (partial): an object with sealed members only, with or without a class name, arrives with exactly its members,
whatever handlers are registered, and the decoder stops behind it.  Missing: dynamic members and external data
(`C33_amf3_flags_refuted`, `C33_amf3_handlers_refuted`). -/
theorem C33_amf3_sealed_partial (H : Amf3.Handlers) (type : Option Bytes) (kvs : List (Bytes × Val))
    (ht : ∀ t ∈ type, t.length < 2 ^ 28) (hn : kvs.length < 2 ^ 25) (hk : (kvs.map Prod.fst).Nodup) (hv : EncodableF kvs)
    (s : St) (rest : Bytes) (hc : s.Contig)
    (hd : s.data = amf3Bytes (match type with | some t => .typed t kvs | none => .obj kvs) ++ rest) :
    ∃ l s', Amf3.decode H s = (.ok (.obj l), s') ∧ s'.data = rest ∧ l.length = kvs.length ∧ (l.map Prod.fst).Nodup ∧ SameF kvs l := by
  cases type with
  | none =>
    obtain ⟨-, w, s', h1, h2, l, rfl, h3⟩ := C30_amf3_round_trip H (.obj kvs) ⟨hn, hk, hv⟩ s rest hc hd
    exact ⟨l, s', h1, h2, h3⟩
  | some t =>
    obtain ⟨-, w, s', h1, h2, l, rfl, h3⟩ := C30_amf3_round_trip H (.typed t kvs) ⟨ht t rfl, hn, hk, hv⟩ s rest hc hd
    exact ⟨l, s', h1, h2, h3⟩

example : ∃ l s', Amf3.decode (fun _ => some (pure .nil)) (St.buffer (amf3Bytes (.typed [84] [([97], .bool true), ([98], .nil)]) ++ [9])) = (.ok (.obj l), s') ∧
    s'.data = [9] ∧ l.length = 2 ∧ (l.map Prod.fst).Nodup ∧ SameF [([97], .bool true), ([98], .nil)] l :=
  C33_amf3_sealed_partial _ (some [84]) [([97], .bool true), ([98], .nil)] (by simp) (by decide) (by decide) (by simp [EncodableF, Encodable])
    (St.buffer (amf3Bytes (.typed [84] [([97], .bool true), ([98], .nil)]) ++ [9])) [9] (fun _ => Nat.le_refl _) rfl
end

/-! ## C75 -/

/-- The display name in front of an address: what is left of the lead without blanks and the opening bracket. -/
def leadName (lead : Bytes) : Bytes := lead.filter fun b => b ≠ 0x20 ∧ b ≠ 9 ∧ b ≠ 0x3c

/-- C75 (partial): the display name of an address without one is empty, and its other parts are right.  Missing: all
addresses with a display name (`C75_display_name_refuted`). -/
theorem C75_display_name_partial (a : Addr) (h : a.Fits) (hn : leadName a.lead = []) :
    newSIPUser a.wire = .ok ⟨a.scheme, leadName a.lead, a.user, a.host, a.port, a.params.map AParam.den⟩ := by
  rw [hn]; exact C126_address_partial a h

example : newSIPUser (text " <sips:jr@ewing.com:5061>;lr") = .ok ⟨text "sips", [], text "jr", text "ewing.com", text "5061", [(text "lr", [])]⟩ := by
  have h := C75_display_name_partial ⟨text " <", text "sips", text "jr", text "ewing.com", text "5061", text ">", [⟨[], text "lr", none, []⟩]⟩
    ⟨by decide +kernel, .inr (.inl rfl), by decide +kernel, by decide +kernel, by decide +kernel, by decide +kernel,
      ⟨by
        intro p hp
        simp only [List.mem_singleton] at hp
        subst hp
        exact ⟨by simp [Blanks], by simp [Blanks], ⟨argText_ascii (by simp only [Printable]; decide +kernel) (by decide +kernel) (by decide +kernel), by decide +kernel, by decide +kernel⟩,
          by rintro v ⟨⟩⟩, by simp⟩⟩ (by decide +kernel)
  rw [show leadName (text " <") = [] by decide +kernel] at h
  exact (show newSIPUser _ = _ from (by decide +kernel : text " <sips:jr@ewing.com:5061>;lr" = Addr.wire ⟨text " <", text "sips", text "jr", text "ewing.com", text "5061", text ">", [⟨[], text "lr", none, []⟩]⟩) ▸ h)

/-! ## C111 -/

/-- C111 (partial): scheme and parameters of a URI without a user part are right, and host and port arrive together
in one piece.  Missing: that piece is taken for the user part (`C111_request_without_user_refuted`,
`C111_address_without_user_refuted`). -/
theorem C111_without_user_partial (t : Bytes) (ht : t = text "sip" ∨ t = text "sips" ∨ t = text "tel") (hostport : Bytes)
    (hh : ∀ b ∈ hostport, b ≠ 0x40 ∧ b ≠ 0x3b ∧ b ≠ 0x3e ∧ b ≠ 0x20) (a o : Args) (ho : o.Perm a) (ha : ArgMap a) :
    (∃ q, newSIPRequest (t ++ 0x3a :: hostport ++ semicolonString o) = .ok q ∧ q.uriType = t ∧ q.args.Perm a ∧
      q.user ++ q.host ++ q.port = hostport) ∧
    ∃ u, newSIPUser (0x3c :: t ++ 0x3a :: hostport ++ 0x3e :: semicolonString o) = .ok u ∧ u.uriType = t ∧ u.args.Perm a ∧
      u.user ++ u.host ++ u.port = hostport :=
  ⟨⟨_, (C111_request_without_user_refuted t ht hostport (fun b hb => ⟨(hh b hb).1, (hh b hb).2.1⟩) a o ho ha).1, rfl, ho, by simp⟩,
    ⟨_, C111_address_without_user_refuted t ht hostport hh a o ho ha, rfl, ho, by simp⟩⟩

example : ∃ q, newSIPRequest (text "sip" ++ 0x3a :: text "registrar.biloxi.com:5060" ++ semicolonString someArgs) = .ok q ∧ q.uriType = text "sip" ∧ q.args.Perm someArgs ∧
    q.user ++ q.host ++ q.port = text "registrar.biloxi.com:5060" :=
  (C111_without_user_partial (text "sip") (.inl rfl) (text "registrar.biloxi.com:5060") (by decide +kernel) someArgs someArgs (List.Perm.refl _) someArgs_ok).1

/-! ## C113 -/

/-- C113 (partial): the schemes in lower case and the four transports of the package in upper case are read as what they
are.  Missing: other letter case (`C113_scheme_case_refuted`) and other transports (`C113_transport_refuted`,
`C113_transport_prefix_refuted`). -/
theorem C113_recognised_partial (a : Addr) (h : a.Fits) (v : ViaLine) (hv : v.Fits) :
    (∃ u, newSIPUser a.wire = .ok u ∧ u.uriType = a.scheme ∧ u.host = a.host) ∧
    ∃ w, newSIPVia v.wire = .ok w ∧ w.trans = v.transport ∧ w.host = v.host :=
  ⟨⟨_, C126_address_partial a h, rfl, rfl⟩, ⟨_, C126_via_partial v hv, rfl, rfl⟩⟩

example : ∃ w, newSIPVia someViaLine.wire = .ok w ∧ w.trans = text "UDP" ∧ w.host = text "first.example.com" :=
  (C113_recognised_partial someAddr someAddr_ok someViaLine someViaLine_ok).2

/-! ## C118 -/

/-- C118 (partial): although `Parse` does not accept a message without content length, every header field of it can be
read from the object afterwards, and the reader stands at the first byte of the body.  Missing: that the message is
accepted (`C118_no_length_refuted`). -/
theorem C118_fields_partial (U : Unicode) (size : Nat) (hsize : 2 ≤ size) (r : Rd) (hr : r.Ok) (hcap : r.cap = size) (m : Message)
    (hst : m.start.Fits size) (ha : ∀ f ∈ m.fields, f.Fits) (hshort : ∀ l ∈ fieldLines m.fields, l.length < size)
    (hno : fieldValues m.fields (text "content-length") = []) (rest : Bytes) (hall : r.all = m.wire ++ rest) :
    ∃ res s r', parse U Sip.new r = (res, s, r') ∧ r'.all = m.body ++ rest ∧
      ∀ n, (∀ b ∈ n, b < 0x80) → getHeader U s.hdr n = fieldValues m.fields n := by
  obtain ⟨s1, s2, s3, s0, s4, s5, -⟩ := start_line U size m.start hst Sip.new
  subst hcap
  have hls := field_lines r.cap m.start.line true m.fields ha hshort s1 s2 s3
  obtain ⟨h', last, g1, g2⟩ := runLines_fields U m.fields [] s0 [] (by rw [s5]; rfl) shows_nil ha
  have t0 := trim_of_chars true s1
  have hrun : runLines U true (((m.start.line ++ lineEnd true) :: fieldLines m.fields).map (trim crlf)) Sip.new =
      (.ok (), { s0 with headers := some h', last := last }) := by
    have hp : parseLine U true m.start.line Sip.new = (.ok (), s0) := s4
    rw [List.map_cons, t0, runLines, hp]
    exact g1
  obtain ⟨r1, k1, k2, k2', k4, k5⟩ := Sips.parse_blank U Sip.new _ Sip.new _ hr _ [13] (m.body ++ rest)
    (by rw [hall, Message.wire, head_lines]; simp) (by simp) (by simp; omega) hls hrun
  have hget : ∀ n, (∀ b ∈ n, b < 0x80) → getHeader U h' n = fieldValues m.fields n := by
    intro n hn
    have := (g2.getHeader U n).1
    rw [toLower_ascii U hn, List.nil_append, fieldValues_eq] at this
    exact this
  have hcl : getContentLength U h' = .err .other := by
    have hg := (g2.getHeader U b!"content-length").2
    rw [lower_cl, List.nil_append] at hg
    have hno' : under' (pairs m.fields) b!"content-length" = [] := by
      rw [← hno, ← fieldValues_eq, show b!"content-length" = text "content-length" by decide +kernel,
        show (text "content-length").map lowerAscii = text "content-length" by decide +kernel]
    rw [getContentLength, hg, hno']
    rfl
  rw [k5, finish]
  obtain ⟨c, q, f, t, v, hfr⟩ := fillHeader_frame U { s0 with headers := some h', last := last }
  rcases hf : fillHeader U { s0 with headers := some h', last := last } with ⟨_ | e | _ | _, s2⟩ <;> rw [hf] at hfr <;> simp only at hfr <;> subst hfr
  · simp only
    rw [fillBody, show ∀ a b c d e, Sip.hdr { s0 with headers := some h', last := last, contact := a, cseq := b, fromU := c, toU := d, via := e } = h' from
          fun _ _ _ _ _ => rfl, hcl]
    exact ⟨_, _, _, rfl, k2, hget⟩
  all_goals exact ⟨_, _, _, rfl, k2, hget⟩

example (U : Unicode) : ∃ res s r', parse U Sip.new ⟨[], [(oneField "Subject" "x").wire], 4096, .eof⟩ = (res, s, r') ∧ r'.all = text "hello" ∧
    getHeader U s.hdr (text "SUBJECT") = [text "x"] := by
  obtain ⟨h1, h2, h3⟩ := oneField_ok "Subject" "x" (by decide)
  obtain ⟨res, s, r', g1, g2, g3⟩ := C118_fields_partial U 4096 (by decide) ⟨[], [(oneField "Subject" "x").wire], 4096, .eof⟩ ⟨by decide, by decide⟩ rfl
    (oneField "Subject" "x") h1 h2 h3 (by decide +kernel) [] (by simp [Rd.all])
  exact ⟨res, s, r', g1, by simpa [oneField] using g2, (g3 _ (by decide +kernel)).trans (by decide +kernel)⟩

/-! ## C119 -/

/-- The same field with other numbers of spaces around the colon and at the end of the line. -/
def HField.Respaced (f g : HField) : Prop := g.name = f.name ∧ g.value = f.value ∧ g.conts = f.conts

theorem respaced_values {fs gs : List HField} (hl : gs.length = fs.length)
    (h : ∀ (i : Nat) f g, fs[i]? = some f → gs[i]? = some g → HField.Respaced f g) (n : Bytes) : fieldValues gs n = fieldValues fs n := by
  induction fs generalizing gs with
  | nil => rw [List.length_nil, List.length_eq_zero_iff] at hl; rw [hl]
  | cons f fs ih =>
    cases gs with
    | nil => simp at hl
    | cons g gs =>
      obtain ⟨h1, h2, h3⟩ := h 0 f g rfl rfl
      have := ih (gs := gs) (by simpa using hl) (fun i f' g' hf hg => h (i + 1) f' g' (by simpa using hf) (by simpa using hg))
      unfold fieldValues at this ⊢
      have hden : g.den = f.den := by simp [HField.den, h2, h3]
      simp only [List.filter_cons, h1]
      split <;> simp [this, hden]

/-- C119 (partial): spaces before and behind the colon and at the end of the line change neither whether a message is
accepted nor what any header reports.  Missing: tabs (`C119_tab_refuted`, `C119_length_refuted`). -/
theorem C119_spaces_partial (U : Unicode) (size : Nat) (hsize : 2 ≤ size) (m m' : Message) (hstart : m'.start = m.start)
    (hbody : m'.body = m.body) (hl : m'.fields.length = m.fields.length)
    (hsp : ∀ (i : Nat) f g, m.fields[i]? = some f → m'.fields[i]? = some g → HField.Respaced f g)
    (hst : m.start.Fits size) (ha : Acceptable size m.fields) (hdecl : Declares m.fields m.body.length)
    (hshort : ∀ l ∈ fieldLines m'.fields, l.length < size)
    (r r' : Rd) (hr : r.Ok) (hr' : r'.Ok) (hcap : r.cap = size) (hcap' : r'.cap = size) (rest rest' : Bytes)
    (hall : r.all = m.wire ++ rest) (hall' : r'.all = m'.wire ++ rest') :
    ∃ s s' r1 r1', parse U Sip.new r = (.ok (), s, r1) ∧ parse U Sip.new r' = (.ok (), s', r1') ∧
      ∀ n, (∀ b ∈ n, b < 0x80) → getHeader U s'.hdr n = getHeader U s.hdr n := by
  have hv := respaced_values hl hsp
  have ha' : Acceptable size m'.fields := by
    refine ⟨fun g hg => ?_, hshort, fun n hn v => by rw [hv]; exact ha.addresses n hn v, by rw [hv]; exact ha.length⟩
    obtain ⟨i, hi, rfl⟩ := List.mem_iff_getElem.mp hg
    have hi' : i < m.fields.length := by omega
    obtain ⟨h1, h2, h3⟩ := hsp i _ _ (List.getElem?_eq_getElem hi') (List.getElem?_eq_getElem hi)
    have hf := ha.fits _ (List.getElem_mem hi')
    exact ⟨by rw [h1]; exact hf.name, by rw [h2]; exact hf.value, by rw [h2, h3]; exact hf.nonempty, by rw [h3]; exact hf.conts⟩
  have hdecl' : Declares m'.fields m'.body.length := by
    obtain ⟨d, h1, h2⟩ := hdecl
    exact ⟨d, by rw [hv]; exact h1, by rw [hbody]; exact h2⟩
  obtain ⟨s, r1, k, g1, -, g2, -⟩ := receiveMessage U size hsize r hr hcap m hst ha _ hdecl (m.body ++ rest) (.inr (by simp; omega))
    (by rw [hall, Message.wire, List.append_assoc])
  obtain ⟨s', r1', k', g1', -, g2', -⟩ := receiveMessage U size hsize r' hr' hcap' m' (by rw [hstart]; exact hst) ha' _ hdecl' (m'.body ++ rest')
    (.inr (by simp; omega)) (by rw [hall', Message.wire, List.append_assoc])
  refine ⟨s, s', r1, r1', g1, g1', fun n hn => ?_⟩
  rw [g2.all n hn, g2'.all n hn, hv]

/-- The message of the other examples with more spaces. -/
def spacedMessage : Message :=
  ⟨.request (1, "INVITE") (text "sip:bob@biloxi.com"),
    [⟨text "To", 3, 0, text "<sip:bob@biloxi.com>;tag=1", 1, true, []⟩, ⟨text "Content-Length", 1, 4, text "5", 2, false, []⟩], text "hello"⟩

example (U : Unicode) : ∃ s s' r1 r1', parse U Sip.new ⟨[], [(someMessage "hello" "5").wire], 4096, .eof⟩ = (.ok (), s, r1) ∧
    parse U Sip.new ⟨[], [spacedMessage.wire], 4096, .eof⟩ = (.ok (), s', r1') ∧
    ∀ n, (∀ b ∈ n, b < 0x80) → getHeader U s'.hdr n = getHeader U s.hdr n :=
  C119_spaces_partial U 4096 (by decide) (someMessage "hello" "5") spacedMessage rfl rfl rfl
    (by
      intro i f g hf hg
      match i with
      | 0 => simp [someMessage] at hf; simp [spacedMessage] at hg; subst hf hg; exact ⟨rfl, rfl, rfl⟩
      | 1 => simp [someMessage] at hf; simp [spacedMessage] at hg; subst hf hg; exact ⟨rfl, rfl, rfl⟩
      | n + 2 => simp [someMessage] at hf)
    (someMessage_ok _ _ (by decide)).1 (someMessage_ok _ _ (by decide)).2.1 (someMessage_ok _ _ (by decide)).2.2 (by decide +kernel)
    _ _ ⟨by decide, by decide⟩ ⟨by decide, by decide⟩ rfl rfl [] [] (by simp [Rd.all]) (by simp [Rd.all])

/-! ## C124 -/

/-- C124 (partial): `Parse` works on every object whose header map exists and is empty, whatever its other fields
hold.  (An object that holds a response already stays one: C105.)  Missing: objects without header map
(`C124_zero_value_refuted`). -/
theorem C124_any_object_partial (U : Unicode) (size : Nat) (hsize : 2 ≤ size) (s0 : Sip) (hs : s0.headers = some []) (hresp : s0.isResponse = false)
    (m : Message) (hst : m.start.Fits size) (ha : Acceptable size m.fields) (r : Rd) (hr : r.Ok) (hcap : r.cap = size) (hfin : r.final = .eof)
    (hall : r.all = m.wire) :
    ∃ s r', parse U s0 r = (.ok (), s, r') ∧ StartRead s m.start ∧ Received U s m.fields := by
  obtain ⟨d, n, hd, hdec, hn⟩ := ha.length
  obtain ⟨s, r', k, h', g1, g2, g3, -⟩ := receiveMessageInto U size hsize r hr hcap s0 [] [] hs shows_nil m hst ha.fits ha.short
    (by simpa using ha.addresses) d n (by simpa using hd) (atoi_decimal hdec hn) m.body (.inl hfin) (by rw [hall, Message.wire])
  exact ⟨s, r', g1, g2 (.inl hresp), by simpa using g3⟩

example (U : Unicode) : ∃ s r', parse U { Sip.new with payload := text "old", last := text "?" } ⟨[], [(someMessage "hello" "5").wire], 4096, .eof⟩ = (.ok (), s, r') ∧
    StartRead s (someMessage "hello" "5").start ∧ Received U s (someMessage "hello" "5").fields :=
  C124_any_object_partial U 4096 (by decide) _ rfl rfl (someMessage "hello" "5") (someMessage_ok _ _ (by decide)).1 (someMessage_ok _ _ (by decide)).2.1 _
    ⟨by decide, by decide⟩ rfl rfl (by simp [Rd.all])

/-! ## C125 -/

open Verif.Amf in
/-- C125 (partial): with the AMF0 decoder the two calls are inverse to each other in both orders, and exactly the header is
removed.  Missing: the AMF3 decoder (`C125_amf3_del_add_refuted`, `C125_amf3_del_refuted`). -/
theorem C125_amf0_partial (st st' : St) (p x : Bytes) (h : startsWithString st p x) (h' : startsWithString st' p x) (hx : x ≠ setDataFrameChars) :
    (∃ q, Amf0.addMetaHeader Amf0.decode st p = .ok q ∧ Amf0.delMetaHeader Amf0.decode st' q = .ok p) ∧
    ∃ q, Amf0.delMetaHeader Amf0.decode st (metaHeader ++ p) = .ok q ∧ Amf0.addMetaHeader Amf0.decode st' q = .ok (metaHeader ++ p) :=
  ⟨C28_del_add st st' p x h hx, p, C28_del_header st p, by rw [C28_add st' p x h', if_neg hx]⟩

open Verif.Amf in
example : ∃ q, Amf0.addMetaHeader Amf0.decode (St.buffer []) sampleMeta = .ok q ∧ Amf0.delMetaHeader Amf0.decode (St.buffer []) q = .ok sampleMeta :=
  (C125_amf0_partial (St.buffer []) (St.buffer []) sampleMeta [111, 110, 77, 101, 116, 97, 68, 97, 116, 97]
    ⟨(Amf0.decode { St.buffer [] with data := sampleMeta, eofOnEmpty := true, lim := id }).2, Prod.ext (by decide +kernel) rfl⟩
    ⟨(Amf0.decode { St.buffer [] with data := sampleMeta, eofOnEmpty := true, lim := id }).2, Prod.ext (by decide +kernel) rfl⟩ (by decide +kernel)).1

/-! ## C127 -/

/-- C127 (partial): a header with one address.  Missing: several addresses (`C127_two_addresses_refuted`,
`C127_shared_params_refuted`). -/
theorem C127_one_address_partial (a : Addr) (h : a.Fits) :
    newSIPUser ([a.wire].flatten) = .ok ⟨a.scheme, [], a.user, a.host, a.port, a.params.map AParam.den⟩ := by
  simpa using C126_address_partial a h

example : ∃ u, newSIPUser ([someAddr.wire].flatten) = .ok u ∧ u.host = text "bell.com" := ⟨_, C127_one_address_partial someAddr someAddr_ok, rfl⟩

end Verif.Props
