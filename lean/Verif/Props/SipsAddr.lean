import Verif.Props.SipsMap
import Verif.Props.SipsUri
import Verif.Lemmas.SipsAddr
/-!
# Properties of package `sips`: addresses, Via values and parameters of other senders, and the text written (C126 to C128)
-/
namespace Verif.Props
open Verif.Sips Verif.Str Verif.Spec Verif.Spec.Sips

/-! ## C126 -/

/-- C126: the parameters of other senders are those meant, whatever blanks, quotes and backslashes they are written with. -/
theorem C126_params (ps : List AParam) (h : AParams ps) : parseArgs (awire ps) = .ok (ps.map AParam.den) := parseArgs_aparams ps h

/-- `; tag="a;b" ;lr; expires=60` with a tab. -/
def someParams : List AParam :=
  [⟨[0x20], text "tag", some (.quoted [(false, 'a'), (false, ';'), (true, '"')]), [0x20]⟩, ⟨[], text "lr", none, []⟩,
   ⟨[9], text "expires", some (.token (text "60")), [0x20, 9]⟩]

theorem someParams_ok : AParams someParams := by
  refine ⟨?_, by decide +kernel⟩
  intro p hp
  simp only [someParams, List.mem_cons, List.not_mem_nil, or_false] at hp
  rcases hp with rfl | rfl | rfl
  · exact ⟨by simp [Blanks], by simp [Blanks], ⟨argText_ascii (by simp only [Printable]; decide +kernel) (by decide +kernel) (by decide +kernel), by decide +kernel, by decide +kernel⟩,
      by rintro v ⟨⟩; simp [DVal.Fits]⟩
  · exact ⟨by simp [Blanks], by simp [Blanks], ⟨argText_ascii (by simp only [Printable]; decide +kernel) (by decide +kernel) (by decide +kernel), by decide +kernel, by decide +kernel⟩,
      by simp⟩
  · exact ⟨by simp [Blanks], by simp [Blanks], ⟨argText_ascii (by simp only [Printable]; decide +kernel) (by decide +kernel) (by decide +kernel), by decide +kernel, by decide +kernel⟩,
      by rintro v ⟨⟩; exact ⟨by decide +kernel, argText_ascii (by simp only [Printable]; decide +kernel) (by decide +kernel) (by decide +kernel)⟩⟩

example : awire someParams = text "; tag=\"a;\\\"\" ;lr;\texpires=60 \t" := by decide +kernel
example : parseArgs (text "; tag=\"a;\\\"\" ;lr;\texpires=60 \t") = .ok [(text "tag", text "a;\""), (text "lr", []), (text "expires", text "60")] := by
  rw [show text "; tag=\"a;\\\"\" ;lr;\texpires=60 \t" = awire someParams by decide +kernel, C126_params someParams someParams_ok]
  congr 1
  decide +kernel

theorem parseArgs_front {s : Bytes} (hs : (0x3b : UInt8) ∉ s) (ps : List AParam) (h : AParams ps) :
    parseArgs (s ++ awire ps) = .ok (ps.map AParam.den) := by
  rw [← C126_params ps h]
  cases ps with
  | nil => rw [show awire [] = [] from rfl, List.append_nil, parseArgs_none s hs]; rfl
  | cons p ps =>
    have e : awire (p :: ps) = 0x3b :: (p.wire ++ awire ps) := by simp [awire]
    have := parseArgs_split [] (p.wire ++ awire ps) (by simp)
    rw [e, parseArgs_split s _ hs, ← this]
    rfl

theorem not_mem_portText {p : Bytes} (h : (0x3b : UInt8) ∉ p) : (0x3b : UInt8) ∉ portText p := by
  rw [portText]; split <;> simp [h]

/-- C126: the parts of an address are found whatever display name stands before the URI, with or without angle brackets, with
spaces, and with parameters written in any way.  (The display name is lost, C75; URI parameters inside the brackets, below.) -/
theorem C126_address_partial (a : Addr) (h : a.Fits) :
    newSIPUser a.wire = .ok ⟨a.scheme, [], a.user, a.host, a.port, a.params.map AParam.den⟩ := by
  have hs := mem_schemes h.scheme
  have e : a.wire = a.lead ++ (a.scheme ++ 0x3a :: (a.user ++ 0x40 :: (a.host ++ (portText a.port ++ (a.close ++ awire a.params))))) := by
    simp [Addr.wire]
  have hends := ends_uri h.lead hs h.user h.host h.port (r := a.close ++ awire a.params) (p := {}) (q := (⟨a.scheme, [], a.user, a.host, a.port⟩, awire a.params))
    (by simp) (fun st hst => ends_close_awire a.close h.close a.params st _ hst)
  rw [← e] at hends
  refine newSIPUser_ends hends ?_
  have e2 : a.wire = (a.lead ++ a.scheme ++ [0x3a] ++ a.user ++ [0x40] ++ a.host ++ portText a.port ++ a.close) ++ awire a.params := rfl
  rw [e2]
  refine parseArgs_front ?_ _ h.params
  have h1 : (0x3b : UInt8) ∉ a.lead := fun hm => (h.lead _ hm).2 rfl
  have h2 : (0x3b : UInt8) ∉ a.scheme := by rcases h.scheme with e | e | e <;> rw [e] <;> decide +kernel
  have h3 : (0x3b : UInt8) ∉ a.user := fun hm => (h.user _ hm).2.1 rfl
  have h4 : (0x3b : UInt8) ∉ a.host := fun hm => (h.host _ hm).2.2.1 rfl
  have h5 : (0x3b : UInt8) ∉ portText a.port := not_mem_portText fun hm => (h.port _ hm).2.1 rfl
  have h6 : (0x3b : UInt8) ∉ a.close := fun hm => by rcases h.close _ hm with e | e <;> exact absurd e (by decide)
  simp [h1, h2, h3, h4, h5, h6]

/-- `"Mr. Watson" < sip:watson@bell.com:5060 > ; tag=...`. -/
def someAddr : Addr := ⟨text "\"Mr. Watson\" < ", text "sip", text "watson", text "bell.com", text "5060", text " > ", someParams⟩

theorem someAddr_ok : someAddr.Fits :=
  ⟨by decide +kernel, .inl rfl, by decide +kernel, by decide +kernel, by decide +kernel, by decide +kernel, someParams_ok⟩

example : ∃ a, newSIPUser (text "\"Mr. Watson\" < sip:watson@bell.com:5060 > ; tag=\"a;\\\"\" ;lr;\texpires=60 \t") = .ok a ∧ a.user = text "watson" ∧
    a.host = text "bell.com" ∧ a.port = text "5060" ∧ a.args = someParams.map AParam.den := by
  have := C126_address_partial someAddr someAddr_ok
  exact ⟨_, (show newSIPUser _ = _ from (by decide +kernel : text "\"Mr. Watson\" < sip:watson@bell.com:5060 > ; tag=\"a;\\\"\" ;lr;\texpires=60 \t" =
    someAddr.wire) ▸ this), rfl, rfl, rfl, rfl⟩

/-- C126 fails for URI parameters, which stand inside the angle brackets: the bracket becomes part of the last one's value, and
all of them are mixed with the parameters of the header. -/
theorem C126_uri_params_refuted (a : Addr) (h : a.Fits) (hc : a.close = []) (k v : Bytes) (inner : List AParam)
    (hi : AParams (inner ++ ⟨[], k, some (.token (v ++ [0x3e])), []⟩ :: a.params)) :
    newSIPUser ({ a with params := inner }.wire ++ 0x3b :: k ++ 0x3d :: v ++ 0x3e :: awire a.params) =
      .ok ⟨a.scheme, [], a.user, a.host, a.port, inner.map AParam.den ++ (k, v ++ [0x3e]) :: a.params.map AParam.den⟩ := by
  have := C126_address_partial { a with params := inner ++ ⟨[], k, some (.token (v ++ [0x3e])), []⟩ :: a.params }
    ⟨h.lead, h.scheme, h.user, h.host, h.port, h.close, hi⟩
  rw [List.map_append, List.map_cons] at this
  refine Eq.trans ?_ this
  congr 1
  simp [Addr.wire, awire, AParam.wire, DVal.wire, hc]

example : newSIPUser (text "<sip:a@b;transport=tcp>;tag=1") =
    .ok ⟨text "sip", [], text "a", text "b", [], [(text "transport", text "tcp>"), (text "tag", text "1")]⟩ := by decide +kernel

/-- C126: the parts of a Via value are found with any spaces behind the transport and around host and port. -/
theorem C126_via_partial (v : ViaLine) (h : v.Fits) :
    newSIPVia v.wire = .ok ⟨v.transport, v.host, (match v.port with | none => [] | some p => p.2), v.params.map AParam.den⟩ := by
  obtain ⟨t, g1, host, g2, port, g3, ps⟩ := v
  obtain ⟨ht, ⟨k1, k2, k3⟩, hh, hp, hps⟩ := h
  simp only at ht k1 k2 k3 hh hp hps
  refine newSIPVia_ends (q := ⟨t, host, _, []⟩) (rest := awire ps) ?_ (C126_params ps hps)
  have e0 : text "SIP/2.0/" = b!"SIP/2.0/" := by decide +kernel
  simp only [ViaLine.wire, e0, List.append_assoc]
  refine vends_start (mem_transports ht) (vends_spaces (vends_host hh (vends_spaces ?_ g2 k2)) g1 k1)
  cases port with
  | none => exact vends_spaces (vends_awire ps _ _) g3 k3
  | some p =>
    obtain ⟨g, p⟩ := p
    obtain ⟨j1, j2⟩ := hp g p rfl
    simp only [List.cons_append, List.append_assoc]
    exact vends_colon (vends_spaces (vends_port j2 (vends_spaces (vends_awire ps _ _) g3 k3)) g j1)

/-- `SIP/2.0/UDP first.example.com: 4000;ttl=16`. -/
def someViaLine : ViaLine := ⟨text "UDP", [0x20], text "first.example.com", [], some ([0x20], text "4000"), [], [⟨[], text "ttl", some (.token (text "16")), []⟩]⟩

theorem someViaLine_ok : someViaLine.Fits :=
  ⟨.inl rfl, by simp [Spaces, someViaLine], by decide +kernel, by rintro g p ⟨⟩; exact ⟨by simp [Spaces], by decide +kernel⟩,
    ⟨by
      intro p hp
      simp only [someViaLine, List.mem_singleton] at hp
      subst hp
      exact ⟨by simp [Blanks], by simp [Blanks], ⟨argText_ascii (by simp only [Printable]; decide +kernel) (by decide +kernel) (by decide +kernel), by decide +kernel, by decide +kernel⟩,
        by rintro v ⟨⟩; exact ⟨by decide +kernel, argText_ascii (by simp only [Printable]; decide +kernel) (by decide +kernel) (by decide +kernel)⟩⟩, by simp [someViaLine]⟩⟩

example : newSIPVia (text "SIP/2.0/UDP first.example.com: 4000;ttl=16") = .ok ⟨text "UDP", text "first.example.com", text "4000", [(text "ttl", text "16")]⟩ := by
  rw [show text "SIP/2.0/UDP first.example.com: 4000;ttl=16" = someViaLine.wire by decide +kernel, C126_via_partial someViaLine someViaLine_ok]
  rfl

/-- C126 fails for a Via value with spaces around the slashes (`SIP / 2.0 / UDP first.example.com: 4000`, the example of RFC 3261,
20.42), and for every other one without `SIP/2.0/`: transport, host and port are empty, and no error is reported. -/
theorem C126_via_slashes_refuted (s : Bytes) (ps : List AParam) (hs : (0x3b : UInt8) ∉ s) (h : AParams ps)
    (hn : ∀ x y, s ++ awire ps ≠ x ++ text "SIP/2.0/" ++ y) : newSIPVia (s ++ awire ps) = .ok ⟨[], [], [], ps.map AParam.den⟩ :=
  newSIPVia_ends (vends_none ps _ s hs (fun x y => by rw [show b!"SIP/2.0/" = text "SIP/2.0/" by decide +kernel]; exact hn x y)) (C126_params ps h)

example : newSIPVia (text "SIP / 2.0 / UDP first.example.com: 4000;ttl=16") = .ok ⟨[], [], [], [(text "ttl", text "16")]⟩ := by decide +kernel

/-- C126 fails for blanks around the `=` of a parameter, which RFC 3261 allows: they become part of name and value. -/
theorem C126_blanks_at_equals_refuted (k v g1 g2 : Bytes) (hk : ArgKey k) (hv : ArgText v) (hne : v ≠ []) (h1 : Blanks g1) (h2 : Blanks g2) :
    parseArgs (0x3b :: (k ++ g1 ++ 0x3d :: (g2 ++ v))) = .ok [(k ++ g1, g2 ++ v)] := by
  have asc : ∀ g, Blanks g → utf8 (asChars g) = g := fun g hg => utf8_asChars g fun b hb => by rcases hg b hb with rfl | rfl <;> decide
  have fine : ∀ g, Blanks g → ∀ c ∈ asChars g, c ≠ '\n' ∧ c ≠ '"' ∧ c ≠ ',' ∧ c ≠ ';' := by
    intro g hg c hc
    simp only [asChars, List.mem_map] at hc
    obtain ⟨b, hb, rfl⟩ := hc
    rcases hg b hb with rfl | rfl <;> decide
  have ht : ArgText (k ++ g1 ++ 0x3d :: (g2 ++ v)) := by
    have := argText_append hk.toArgText hv hk.nonempty hne (asChars g1 ++ '=' :: asChars g2) (by
      intro c hc
      simp only [List.mem_append, List.mem_cons] at hc
      rcases hc with hc | rfl | hc
      · exact fine g1 h1 c hc
      · decide
      · exact fine g2 h2 c hc)
    rw [utf8_append, utf8_cons, asc g1 h1, asc g2 h2] at this
    simpa [show String.utf8EncodeChar '=' = [0x3d] by decide] using this
  have hl := parseList_items (k ++ g1 ++ 0x3d :: (g2 ++ v)) [] (by simpa using ht) (by simp)
  simp only [List.map_nil, List.flatten_nil, List.append_nil] at hl
  have hs := parseArgs_split [] (k ++ g1 ++ 0x3d :: (g2 ++ v)) (by simp)
  rw [List.nil_append] at hs
  have hq : (0x22 : UInt8) ∉ g2 ++ v := by
    rw [List.mem_append]
    rintro (hm | hm)
    · rcases h2 _ hm with e | e <;> exact absurd e (by decide)
    · exact (argText_not_mem hv).2.1 hm
  have hnk : (0x3d : UInt8) ∉ k ++ g1 := by
    rw [List.mem_append]
    rintro (hm | hm)
    · exact hk.noEq hm
    · rcases h1 _ hm with e | e <;> exact absurd e (by decide)
  have hu : unquoted (g2 ++ v) = g2 ++ v := by
    have : (g2 ++ v).head? ≠ some 0x22 := fun e => hq (List.mem_of_head? e)
    rw [unquoted, if_neg (fun h => this h.1)]
  rw [hs, parseArgsPairs, argText_trim ht, hl, pairLoop, parsePair_eq _ _ _ hnk, if_neg, hu]
  · rfl
  · rintro (e | e)
    · simp [hne] at e
    · exact hq (by rw [e]; simp)

example : parseArgs (text ";tag = 4711") = .ok [(text "tag ", text " 4711")] := by
  have := C126_blanks_at_equals_refuted (text "tag") (text "4711") [0x20] [0x20]
    ⟨argText_ascii (by simp only [Printable]; decide +kernel) (by decide +kernel) (by decide +kernel), by decide +kernel, by decide +kernel⟩
    (argText_ascii (by simp only [Printable]; decide +kernel) (by decide +kernel) (by decide +kernel)) (by decide +kernel) (by simp [Blanks]) (by simp [Blanks])
  rw [show text ";tag = 4711" = 0x3b :: (text "tag" ++ [0x20] ++ 0x3d :: ([0x20] ++ text "4711")) by decide +kernel, this]
  congr 1
  decide +kernel

/-! ## C127 -/

/-- C127 fails for every header with two addresses (such as a Contact header), the first without parameters: users, hosts and
ports are joined. -/
theorem C127_two_addresses_refuted (a b : Addr) (ha : a.Fits) (hb : b.Fits) (hp : a.params = []) (hc : a.close ≠ []) :
    newSIPUser (a.wire ++ 0x2c :: b.wire) = .ok ⟨b.scheme, [], a.user ++ b.user, a.host ++ b.host, a.port ++ b.port, b.params.map AParam.den⟩ := by
  have hsa := mem_schemes ha.scheme
  have hsb := mem_schemes hb.scheme
  have hl : ∀ x ∈ 0x2c :: b.lead, x ≠ 0x3a ∧ x ≠ 0x3b := by
    intro x hx
    rcases List.mem_cons.1 hx with rfl | hx
    · decide
    · exact hb.lead x hx
  have h2 := ends_uri hl hsb hb.user hb.host hb.port (r := b.close ++ awire b.params) (p := ⟨a.scheme, [], a.user, a.host, a.port⟩)
    (q := (⟨b.scheme, [], a.user ++ b.user, a.host ++ b.host, a.port ++ b.port⟩, awire b.params))
    (by show a.scheme ≠ []; rcases ha.scheme with e | e | e <;> rw [e] <;> decide +kernel) (fun st hst => ends_close_awire b.close hb.close b.params st _ hst)
  have hclose : ∀ (c : Bytes), c ≠ [] → (∀ x ∈ c, x = 0x20 ∨ x = 0x3e) → ∀ (st : Field) (p : Parts) (r : Bytes) (q : Parts × Bytes), st ≠ .name →
      UEnds r .base p q → UEnds (c ++ r) st p q := by
    intro c
    induction c with
    | nil => intro h; exact absurd rfl h
    | cons x c ih =>
      intro _ hx st p r q hst h
      refine ends_close hst (hx x (by simp)) ?_
      by_cases hc : c = []
      · rw [hc]; exact h
      · exact ih hc (fun y hy => hx y (by simp [hy])) .base p r q (by decide) h
  have h1 := ends_uri ha.lead hsa ha.user ha.host ha.port (r := a.close ++ (0x2c :: b.lead ++ (b.scheme ++ 0x3a :: (b.user ++ 0x40 :: (b.host ++ (portText b.port ++ (b.close ++ awire b.params)))))))
    (p := {}) (q := (⟨b.scheme, [], a.user ++ b.user, a.host ++ b.host, a.port ++ b.port⟩, awire b.params)) (by simp)
    (fun st hst => hclose a.close hc ha.close st _ _ _ hst h2)
  have e : a.wire ++ 0x2c :: b.wire = a.lead ++ (a.scheme ++ 0x3a :: (a.user ++ 0x40 :: (a.host ++ (portText a.port ++ (a.close ++ (0x2c :: b.lead ++
      (b.scheme ++ 0x3a :: (b.user ++ 0x40 :: (b.host ++ (portText b.port ++ (b.close ++ awire b.params)))))))))))  := by
    simp [Addr.wire, hp, awire]
  rw [← e] at h1
  refine newSIPUser_ends h1 ?_
  have key : ∀ a : Addr, a.Fits → (0x3b : UInt8) ∉ a.lead ++ a.scheme ++ [0x3a] ++ a.user ++ [0x40] ++ a.host ++ portText a.port ++ a.close := by
    intro a h
    have h1 : (0x3b : UInt8) ∉ a.lead := fun hm => (h.lead _ hm).2 rfl
    have h2 : (0x3b : UInt8) ∉ a.scheme := by rcases h.scheme with e | e | e <;> rw [e] <;> decide +kernel
    have h3 : (0x3b : UInt8) ∉ a.user := fun hm => (h.user _ hm).2.1 rfl
    have h4 : (0x3b : UInt8) ∉ a.host := fun hm => (h.host _ hm).2.2.1 rfl
    have h5 : (0x3b : UInt8) ∉ portText a.port := not_mem_portText fun hm => (h.port _ hm).2.1 rfl
    have h6 : (0x3b : UInt8) ∉ a.close := fun hm => by rcases h.close _ hm with e | e <;> exact absurd e (by decide)
    simp [h1, h2, h3, h4, h5, h6]
  have e2 : a.wire ++ 0x2c :: b.wire = (a.lead ++ a.scheme ++ [0x3a] ++ a.user ++ [0x40] ++ a.host ++ portText a.port ++ a.close ++ 0x2c ::
      (b.lead ++ b.scheme ++ [0x3a] ++ b.user ++ [0x40] ++ b.host ++ portText b.port ++ b.close)) ++ awire b.params := by
    simp [Addr.wire, hp, awire]
  rw [e2]
  refine parseArgs_front ?_ _ hb.params
  rw [List.mem_append, List.mem_cons]
  rintro (hm | hm | hm)
  · exact key a ha hm
  · exact absurd hm (by decide)
  · exact key b hb hm

example : newSIPUser (text "<sip:alice@atlanta.com>, <sip:bob@biloxi.com>") = .ok ⟨text "sip", [], text "alicebob", text "atlanta.combiloxi.com", [], []⟩ := by
  have := C127_two_addresses_refuted ⟨text "<", text "sip", text "alice", text "atlanta.com", [], text ">", []⟩
    ⟨text " <", text "sip", text "bob", text "biloxi.com", [], text ">", []⟩
    ⟨by decide +kernel, .inl rfl, by decide +kernel, by decide +kernel, by simp, by decide +kernel, by simp, by simp⟩
    ⟨by decide +kernel, .inl rfl, by decide +kernel, by decide +kernel, by simp, by decide +kernel, by simp, by simp⟩ rfl (by decide +kernel)
  rw [show text "<sip:alice@atlanta.com>, <sip:bob@biloxi.com>" = (⟨text "<", text "sip", text "alice", text "atlanta.com", [], text ">", []⟩ : Addr).wire ++
    0x2c :: (⟨text " <", text "sip", text "bob", text "biloxi.com", [], text ">", []⟩ : Addr).wire by decide +kernel, this]
  decide +kernel

/-- C127 fails too if the first address has parameters: the user of the first address gets the parameters of the second, whose
address becomes the name of a parameter. -/
theorem C127_shared_params_refuted (a : Addr) (ha : a.Fits) (hp : a.params = []) (k v w y g : Bytes) (hk : ArgKey k) (hv : ArgText v) (hv0 : v ≠ [])
    (hw : ArgText w) (hw0 : w ≠ []) (hg : Blanks g) (hy : ArgKey y) (hne : y ≠ k) :
    newSIPUser (a.wire ++ 0x3b :: (k ++ 0x3d :: v ++ 0x2c :: (g ++ y ++ 0x3b :: (k ++ 0x3d :: w)))) =
      .ok ⟨a.scheme, [], a.user, a.host, a.port, [(k, w), (y, [])]⟩ := by
  have hs := mem_schemes ha.scheme
  have hfront : (0x3b : UInt8) ∉ a.wire := by
    have h1 : (0x3b : UInt8) ∉ a.lead := fun hm => (ha.lead _ hm).2 rfl
    have h2 : (0x3b : UInt8) ∉ a.scheme := by rcases ha.scheme with e | e | e <;> rw [e] <;> decide +kernel
    have h3 : (0x3b : UInt8) ∉ a.user := fun hm => (ha.user _ hm).2.1 rfl
    have h4 : (0x3b : UInt8) ∉ a.host := fun hm => (ha.host _ hm).2.2.1 rfl
    have h5 : (0x3b : UInt8) ∉ portText a.port := not_mem_portText fun hm => (ha.port _ hm).2.1 rfl
    have h6 : (0x3b : UInt8) ∉ a.close := fun hm => by rcases ha.close _ hm with e | e <;> exact absurd e (by decide)
    simp [Addr.wire, hp, awire, h1, h2, h3, h4, h5, h6]
  have hclose : ∀ (c r : Bytes), (∀ b ∈ c, b = 0x20 ∨ b = 0x3e) → ∀ (st : Field) (p : Parts), st ≠ .name → UEnds (c ++ 0x3b :: r) st p (p, 0x3b :: r) := by
    intro c r
    induction c with
    | nil => intro _ st p _; exact ends_semi r st p
    | cons b c ih => intro hc st p hst; exact ends_close hst (hc b (by simp)) (ih (fun x hx => hc x (by simp [hx])) .base p (by decide))
  generalize hr : k ++ 0x3d :: v ++ 0x2c :: (g ++ y ++ 0x3b :: (k ++ 0x3d :: w)) = r
  have hends := ends_uri ha.lead hs ha.user ha.host ha.port (r := a.close ++ 0x3b :: r) (p := {}) (q := (⟨a.scheme, [], a.user, a.host, a.port⟩, 0x3b :: r))
    (by simp) (fun st hst => hclose a.close r ha.close st _ hst)
  rw [show a.lead ++ (a.scheme ++ 0x3a :: (a.user ++ 0x40 :: (a.host ++ (portText a.port ++ (a.close ++ 0x3b :: r))))) = a.wire ++ 0x3b :: r by
    simp [Addr.wire, hp, awire]] at hends
  refine newSIPUser_ends hends ?_
  rw [parseArgs_split _ _ hfront]
  obtain ⟨kv1, kv2⟩ := lineText_ok (e := (k, v)) hk hv
  obtain ⟨kw1, kw2⟩ := lineText_ok (e := (k, w)) hk hw
  have er : r = lineText (k, v) ++ (0x2c :: (g ++ (y ++ (0x3b :: lineText (k, w))))) := by rw [← hr]; simp [lineText]
  have hu : ∀ c : UInt8, c < 0x80 → ∀ s, IsUtf8 s → IsUtf8 (c :: s) := fun c hc s hs =>
    IsUtf8.append (s := [c]) (isUtf8_ascii _ (by simpa using hc)) hs
  have hgu : IsUtf8 g := isUtf8_ascii _ fun b hb => by rcases hg b hb with rfl | rfl <;> decide
  have hyu := argText_isUtf8 hy.toArgText
  have htrim : trimSpace r = r := by
    rw [er]
    refine trimSpace_black ((argText_head kv1 kv2).append (hu _ (by decide) _ (hgu.append (hyu.append (hu _ (by decide) _ (argText_isUtf8 kw1)))))) ?_
    rw [show lineText (k, v) ++ (0x2c :: (g ++ (y ++ (0x3b :: lineText (k, w))))) = (lineText (k, v) ++ ([0x2c] ++ (g ++ (y ++ [0x3b])))) ++ lineText (k, w) by simp]
    exact (argText_last kw1 kw2).append ((argText_isUtf8 kv1).append ((isUtf8_ascii _ (by decide)).append (hgu.append (hyu.append (isUtf8_ascii _ (by decide))))))
  have hlist : parseList r = [lineText (k, v), y, lineText (k, w)] := by
    simp only [parseList]
    rw [er, listStep_text kv1 _ _ rfl rfl, runes_ascii_cons (by decide), List.foldl_cons, show (0x2c : UInt8).toNat = 0x2c from rfl,
      listStep_comma _ rfl rfl, listStep_blanks g hg _ _ rfl rfl, listStep_text hy.toArgText _ _ rfl rfl, runes_ascii_cons (by decide), List.foldl_cons,
      show (0x3b : UInt8).toNat = 0x3b from rfl, listStep_semi _ rfl rfl]
    have e2 := listStep_text kw1 [] { list := [lineText (k, v), y] } rfl rfl
    rw [List.append_nil, show runes [] = [] from rfl, List.foldl_nil] at e2
    have t1 : trimSpace (lineText (k, v)) = lineText (k, v) := argText_trim kv1
    have t2 : trimSpace (g ++ y) = y := trimSpace_blanks g y hg (argText_head hy.toArgText hy.nonempty) (argText_last hy.toArgText hy.nonempty)
    simp only [List.nil_append, List.cons_append] at e2 ⊢
    simp only [t1, t2]
    rw [e2]
    simp [kw2, argText_trim kw1]
  have hq : ∀ v : Bytes, ArgText v → v ≠ [] → ∀ m, parsePair m (lineText (k, v)) = .ok (mset m k v) := by
    intro v hv hv0 m
    have h22 := (argText_not_mem hv).2.1
    have e : lineText (k, v) = k ++ 0x3d :: v := by simp [lineText]
    rw [e, parsePair_eq m k v hk.noEq, if_neg, unquoted, if_neg (fun h => h22 (List.mem_of_head? h.1))]
    rintro (e | e)
    · exact hv0 e
    · exact h22 (by rw [e]; simp)
  have hyp : ∀ m, parsePair m y = .ok (mset m y []) := by
    intro m
    simp only [parsePair]
    rw [index_not_mem hy.noEq, if_pos (by decide)]
  rw [parseArgsPairs, htrim, hlist]
  simp only [pairLoop, hq v hv hv0, hq w hw hw0, hyp, Res.bind_ok]
  simp [mset, hne, Ne.symm hne]

example : newSIPUser (text "<sip:alice@a.com>;q=0.7, <sip:bob@b.com>;q=0.1") =
    .ok ⟨text "sip", [], text "alice", text "a.com", [], [(text "q", text "0.1"), (text "<sip:bob@b.com>", [])]⟩ := by decide +kernel

/-! ## C128 -/

theorem portBytes_text (p : Bytes) : portBytes p = portText p := by cases p <;> simp [portBytes, portText]

theorem args_text (a : Args) : argsBytes a = paramsText a := by
  rw [argsBytes_eq, semicolonString, paramsText]
  congr 1
  refine List.map_congr_left fun e _ => ?_
  by_cases h : e.2 = [] <;> simp [semiItem, h]

/-- C128 (partial): a request URI with a user part is written as RFC 3261 has it. -/
theorem C128_request_partial (s : Request) (h : s.user ≠ []) :
    s.bytes = uriText s.uriType s.user s.host s.port ++ paramsText s.args := by
  simp [Request.bytes, portBytes_text, args_text, uriText, h]

/-- C128 (partial): so is an address, with its display name in quotes and its parameters behind the brackets. -/
theorem C128_address_partial (U : Unicode) (s : User) (h : s.user ≠ []) (hn : ∀ b ∈ s.name, Printable b) :
    s.bytes U = (if s.name = [] then [] else if s.name = text "Anonymous" then text "Anonymous " else quotedText s.name ++ [0x20]) ++
      [0x3c] ++ uriText s.uriType s.user s.host s.port ++ [0x3e] ++ paramsText s.args := by
  have hname : nameBytes U s.name = if s.name = [] then [] else if s.name = text "Anonymous" then text "Anonymous " else quotedText s.name ++ [0x20] := by
    rw [nameBytes]
    by_cases h0 : s.name = []
    · rw [if_neg (by simp [h0]), if_pos h0]
    · rw [if_pos (List.length_pos_iff.2 h0), if_neg h0]
      by_cases h1 : s.name = text "Anonymous"
      · rw [if_pos (h1.trans (by decide +kernel)), if_pos h1, h1]; decide +kernel
      · rw [if_neg (fun e => h1 (e.trans (by decide +kernel))), if_neg h1, quote_wire U s.name hn]
        simp only [DVal.wire, quotedText, List.map_map]
        congr 4
        refine List.map_congr_left fun b hb => ?_
        simp only [Function.comp, ascii_utf8 (Printable.ascii (hn b hb))]
        by_cases hq : b = 0x22 ∨ b = 0x5c
        · rw [if_pos (by simpa using hq), if_pos hq]
        · rw [if_neg (by simpa using hq), if_neg hq]
  rw [User.bytes, hname]
  simp [portBytes_text, args_text, uriText, h]

/-- C128: a Via value is written as RFC 3261 has it, and so is a CSeq value. -/
theorem C128_via_cseq (v : Via) (c : Cseq) :
    v.bytes = text "SIP/2.0/" ++ v.trans ++ [0x20] ++ v.host ++ portText v.port ++ paramsText v.args ∧ c.bytes = c.id ++ [0x20] ++ c.method := by
  refine ⟨?_, rfl⟩
  rw [show text "SIP/2.0/" = b!"SIP/2.0/" by decide +kernel]
  simp [Via.bytes, portBytes_text, args_text, versionString]

/-- C128 fails for every URI without a user part, alone or in an address: an `@` is written in front of the host. -/
theorem C128_no_user_refuted (U : Unicode) (s : Request) (h : s.user = []) :
    s.bytes = s.uriType ++ [0x3a, 0x40] ++ s.host ++ portText s.port ++ paramsText s.args ∧
    s.bytes ≠ uriText s.uriType s.user s.host s.port ++ paramsText s.args ∧
    (s.toUser.bytes U) ≠ [0x3c] ++ uriText s.uriType s.user s.host s.port ++ [0x3e] ++ paramsText s.args := by
  have e : s.bytes = s.uriType ++ [0x3a, 0x40] ++ s.host ++ portText s.port ++ paramsText s.args := by
    simp [Request.bytes, portBytes_text, args_text, h]
  refine ⟨e, fun e2 => ?_, fun e2 => ?_⟩
  · have := congrArg List.length (e.symm.trans e2)
    simp [uriText, h] at this
  · have := congrArg List.length e2
    simp [User.bytes, Request.toUser, nameBytes, portBytes_text, args_text, uriText, h] at this

/-- `"J \"R\" Ewing" <sips:jr@ewing.com:5061>;tag=9;lr`. -/
def someWritten : User := ⟨text "sips", text "J \"R\" Ewing", text "jr", text "ewing.com", text "5061", [(text "tag", text "9"), (text "lr", [])]⟩

example (U : Unicode) : someWritten.bytes U = text "\"J \\\"R\\\" Ewing\" <sips:jr@ewing.com:5061>;tag=9;lr" :=
  (C128_address_partial U someWritten (by decide +kernel) (by simp only [Printable]; decide +kernel)).trans (by decide +kernel)
example : (⟨text "sip", text "a", text "b", text "5", []⟩ : Request).bytes = text "sip:a@b:5" := (C128_request_partial _ (by decide +kernel)).trans (by decide +kernel)
example : (⟨text "UDP", text "h", [], [(text "branch", text "z9")]⟩ : Via).bytes = text "SIP/2.0/UDP h;branch=z9" :=
  (C128_via_cseq _ ⟨[], []⟩).1.trans (by decide +kernel)
example (U : Unicode) : (⟨text "sip", [], text "b", [], []⟩ : Request).bytes = text "sip:@b" := (C128_no_user_refuted U _ rfl).1.trans (by decide +kernel)

end Verif.Props
