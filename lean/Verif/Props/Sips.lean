import Verif.Lemmas.SipsPanic
/-!
# Properties of package `sips`: the pieces of a message (C69 to C77)

`U` stands for the Unicode tables of the standard library, which are arbitrary here.
-/
namespace Verif.Props
open Verif.Sips Verif.Str Verif.Spec Verif.Spec.Sips

/-! ## C69 -/

theorem cseqLoop_id (i : Bytes) (hi : (0x20 : UInt8) ∉ i) (r : Bytes) : ∀ c : Cseq,
    cseqLoop (i ++ r) false c = cseqLoop r false { c with id := c.id ++ i } := by
  induction i with
  | nil => intro c; simp
  | cons b i ih =>
    intro c
    have hb : ¬ b = 0x20 := fun e => hi (by simp [e])
    rw [List.cons_append, cseqLoop, if_neg hb, ih (fun h => hi (by simp [h]))]
    simp

theorem cseqLoop_method (m : Bytes) : ∀ c : Cseq, cseqLoop m true c = { c with method := c.method ++ m } := by
  induction m with
  | nil => intro c; simp [cseqLoop]
  | cons b m ih => intro c; rw [cseqLoop, ih]; simp

/-- C69: id and method survive, whatever the method and for every id without a space. -/
theorem C69_cseq_round_trip (c : Cseq) (h : Without 0x20 c.id) : newSIPCseq c.bytes = c := by
  have : c.bytes = c.id ++ 0x20 :: c.method := by simp [Cseq.bytes]
  rw [newSIPCseq, this, cseqLoop_id _ h, cseqLoop, if_pos rfl, cseqLoop_method]
  simp

/-- C69: the text survives if it contains a space. -/
theorem C69_cseq_text (s : Bytes) (h : (0x20 : UInt8) ∈ s) : (newSIPCseq s).bytes = s := by
  obtain ⟨a, r, rfl, ha, -⟩ := index_split h
  rw [newSIPCseq, cseqLoop_id _ ha, cseqLoop, if_pos rfl, cseqLoop_method]
  simp [Cseq.bytes]

example : newSIPCseq (⟨text "314159", text "INVITE"⟩ : Cseq).bytes = ⟨text "314159", text "INVITE"⟩ :=
  C69_cseq_round_trip ⟨text "314159", text "INVITE"⟩ (by simp only [Without]; decide +kernel)
example : (newSIPCseq (text "1  ACK x")).bytes = text "1  ACK x" := C69_cseq_text _ (by decide +kernel)

/-! ## C70 -/

/-- C70: `Substring` never panics; it is the part of the text from `max(from, 0)` to `max(to, 0)`, cut off at the end of the
text. -/
theorem C70_substring (v : Bytes) (fr to : Int) : substring v fr to = .ok ((v.take to.toNat).drop fr.toNat) :=
  substring_ok v fr to

/-- C70 in terms of lengths: nothing if the range is empty, otherwise all of it that exists. -/
theorem C70_substring_length (v : Bytes) (fr to : Int) :
    ∃ s, substring v fr to = .ok s ∧ s.length = min to.toNat v.length - fr.toNat ∧
      ∀ k, k < s.length → s[k]? = v[fr.toNat + k]? := by
  refine ⟨_, substring_ok v fr to, by simp, ?_⟩
  intro k hk
  simp only [List.length_drop, List.length_take] at hk
  rw [List.getElem?_drop, List.getElem?_take]
  rw [if_pos (by omega)]

example : substring (text "sip:alice") (-3) 4 = .ok (text "sip:") ∧ substring (text "sip:alice") 20 30 = .ok [] ∧
    substring (text "sip:alice") 4 2 = .ok [] ∧ substring (text "sip:alice") 4 100 = .ok (text "alice") := by
  decide +kernel

/-! ## C71 -/

theorem upper_lower (b : UInt8) : upperByte (lowerAscii b) = upperByte b := by
  have : ∀ n : Fin 256, upperByte (lowerAscii (UInt8.ofNat n.val)) = upperByte (UInt8.ofNat n.val) := by decide +kernel
  have h := this ⟨b.toNat, b.toNat_lt⟩
  simpa using h

theorem lower_upper (b : UInt8) : lowerAscii (upperByte b) = lowerAscii b := by
  have : ∀ n : Fin 256, lowerAscii (upperByte (UInt8.ofNat n.val)) = lowerAscii (UInt8.ofNat n.val) := by decide +kernel
  have h := this ⟨b.toNat, b.toNat_lt⟩
  simpa using h

theorem sameText_upper {s t : Bytes} (h : SameText s t) : s.map upperByte = t.map upperByte := by
  have e : ∀ x : Bytes, x.map upperByte = (x.map lowerAscii).map upperByte := by
    intro x; rw [List.map_map]; exact List.map_congr_left fun b _ => (upper_lower b).symm
  rw [e s, e t, show s.map lowerAscii = t.map lowerAscii from h]

theorem sameText_of_upper {s t : Bytes} (h : s.map upperByte = t.map upperByte) : SameText s t := by
  have e : ∀ x : Bytes, x.map lowerAscii = (x.map upperByte).map lowerAscii := by
    intro x; rw [List.map_map]; exact List.map_congr_left fun b _ => (lower_upper b).symm
  show s.map lowerAscii = t.map lowerAscii
  rw [e s, e t, h]

/-- C71: every method is written with its name and recognised in any letter case. -/
theorem C71_methods (U : Unicode) (e : UInt16 × String) (he : e ∈ methods) : methodString e.1 = text e.2 ∧
    ∀ s : Bytes, (∀ b ∈ s, b < 0x80) → SameText s (text e.2) → getSIPMethod U s = .ok e.1 := by
  have htab : ∀ e ∈ methods, methodString e.1 = text e.2 ∧ methodOf ((text e.2).map upperByte) = .ok e.1 := by
    decide +kernel
  refine ⟨(htab e he).1, fun s ha hs => ?_⟩
  rw [getSIPMethod, toUpper, if_pos ((isAscii_iff s).2 ha), sameText_upper hs, (htab e he).2]

/-- C71: every other ASCII text is rejected. -/
theorem C71_methods_other (U : Unicode) (s : Bytes) (ha : ∀ b ∈ s, b < 0x80)
    (h : ∀ e ∈ methods, ¬ SameText s (text e.2)) : ∃ e, getSIPMethod U s = .err e := by
  have htab : ∀ e ∈ methods, (text e.2).map upperByte = text e.2 := by decide +kernel
  have key : ∀ e ∈ methods, s.map upperByte ≠ text e.2 := by
    intro e he hs
    exact h e he (sameText_of_upper (hs.trans (htab e he).symm))
  rw [getSIPMethod, toUpper, if_pos ((isAscii_iff s).2 ha)]
  generalize s.map upperByte = u at key
  have key : ∀ n ∈ methods.map (fun e => text e.2), u ≠ n := by
    intro n hn
    obtain ⟨e, he, rfl⟩ := List.mem_map.1 hn
    exact key e he
  have hm : methods.map (fun e => text e.2) = [b!"INVITE", b!"ACK", b!"BYE", b!"CANCEL", b!"OPTIONS", b!"REGISTER", b!"PRACK",
    b!"SUBSCRIBE", b!"NOTIFY", b!"PUBLISH", b!"INFO", b!"REFER", b!"MESSAGE", b!"UPDATE", b!"PING"] := by decide +kernel
  rw [hm] at key
  refine ⟨.other, ?_⟩
  simp only [List.mem_cons, List.not_mem_nil, or_false, forall_eq_or_imp, forall_eq] at key
  obtain ⟨h1, h2, h3, h4, h5, h6, h7, h8, h9, h10, h11, h12, h13, h14, h15⟩ := key
  simp only [methodOf]
  rw [if_neg h1, if_neg h2, if_neg h3, if_neg h4, if_neg h5, if_neg h6, if_neg h7, if_neg h8, if_neg h9, if_neg h10,
    if_neg h11, if_neg h12, if_neg h13, if_neg h14, if_neg h15]

/-- C71: the versions are written as they should be and recognised in any letter case. -/
theorem C71_versions (U : Unicode) (e : UInt8 × String) (he : e ∈ versions) : versionString e.1 = text e.2 ∧
    ∀ s : Bytes, (∀ b ∈ s, b < 0x80) → SameText s (text e.2) → getSIPVersion U s = .ok e.1 := by
  have htab : ∀ e ∈ versions, versionString e.1 = text e.2 ∧ versionOf ((text e.2).map upperByte) = .ok e.1 := by
    decide +kernel
  refine ⟨(htab e he).1, fun s ha hs => ?_⟩
  rw [getSIPVersion, toUpper, if_pos ((isAscii_iff s).2 ha), sameText_upper hs, (htab e he).2]

/-- C71: every other ASCII text is rejected. -/
theorem C71_versions_other (U : Unicode) (s : Bytes) (ha : ∀ b ∈ s, b < 0x80)
    (h : ∀ e ∈ versions, ¬ SameText s (text e.2)) : ∃ e, getSIPVersion U s = .err e := by
  have htab : ∀ e ∈ versions, (text e.2).map upperByte = text e.2 := by decide +kernel
  have key : ∀ e ∈ versions, s.map upperByte ≠ text e.2 := by
    intro e he hs
    exact h e he (sameText_of_upper (hs.trans (htab e he).symm))
  rw [getSIPVersion, toUpper, if_pos ((isAscii_iff s).2 ha)]
  generalize s.map upperByte = u at key
  have key : ∀ n ∈ versions.map (fun e => text e.2), u ≠ n := by
    intro n hn
    obtain ⟨e, he, rfl⟩ := List.mem_map.1 hn
    exact key e he
  have hm : versions.map (fun e => text e.2) = [b!"SIP/1.0", b!"SIP/2.0"] := by decide +kernel
  rw [hm] at key
  refine ⟨.other, ?_⟩
  simp only [List.mem_cons, List.not_mem_nil, or_false, forall_eq_or_imp, forall_eq] at key
  simp only [versionOf]
  rw [if_neg key.1, if_neg key.2]

example (U : Unicode) : getSIPMethod U (text "iNviTe") = .ok 1 :=
  (C71_methods U (1, "INVITE") (by decide)).2 _ (by decide +kernel) (by simp only [SameText]; decide +kernel)
example (U : Unicode) : ∃ e, getSIPMethod U (text "INVITE ") = .err e :=
  C71_methods_other U _ (by decide +kernel) (by simp only [SameText]; decide +kernel)
example (U : Unicode) : getSIPVersion U (text "sip/2.0") = .ok 2 :=
  (C71_versions U (2, "SIP/2.0") (by decide)).2 _ (by decide +kernel) (by simp only [SameText]; decide +kernel)
example (U : Unicode) : ∃ e, getSIPVersion U (text "HTTP/1.1") = .err e :=
  C71_versions_other U _ (by decide +kernel) (by simp only [SameText]; decide +kernel)

/-! ## C76 -/

theorem argMap_perm {a o : Args} (h : ArgMap a) (ho : o.Perm a) : ArgMap o :=
  ⟨((ho.map Prod.fst).nodup_iff).2 h.distinct, fun e he => h.keys e (ho.mem_iff.1 he), fun e he => h.values e (ho.mem_iff.1 he)⟩

/-- C76: whatever the order `o` in which Go visits the map, the text parses back to the same entries. -/
theorem C76_args_round_trip (a o : Args) (h : ArgMap a) (ho : o.Perm a) :
    ∃ m, parseArgs (semicolonString o) = .ok m ∧ m.Perm a :=
  ⟨o, parseArgs_semi o (argMap_perm h ho), ho⟩

/-- The arguments of the examples: `;branch=z9hG4bK776;lr`. -/
def someArgs : Args := [(text "branch", text "z9hG4bK776"), (text "lr", [])]

theorem someArgs_ok : ArgMap someArgs := by
  have hdec : (∀ e ∈ someArgs, (∀ b ∈ e.1, (0x20 ≤ b ∧ b ≤ 0x7e) ∧ b ≠ 0x22 ∧ b ≠ 0x2c ∧ b ≠ 0x3b) ∧ e.1.head? ≠ some 0x20 ∧
      e.1.getLast? ≠ some 0x20 ∧ e.1 ≠ [] ∧ (0x3d : UInt8) ∉ e.1) ∧
      ∀ e ∈ someArgs, (∀ b ∈ e.2, (0x20 ≤ b ∧ b ≤ 0x7e) ∧ b ≠ 0x22 ∧ b ≠ 0x2c ∧ b ≠ 0x3b) ∧ e.2.head? ≠ some 0x20 ∧
      e.2.getLast? ≠ some 0x20 := by decide +kernel
  refine ⟨by decide +kernel, fun e he => ?_, fun e he => ?_⟩
  · obtain ⟨h1, h2, h3, h4, h5⟩ := hdec.1 e he
    exact ⟨argText_ascii h1 h2 h3, h4, h5⟩
  · obtain ⟨h1, h2, h3⟩ := hdec.2 e he
    exact argText_ascii h1 h2 h3

example : ∃ m, parseArgs (semicolonString [(text "lr", []), (text "branch", text "z9hG4bK776")]) = .ok m ∧ m.Perm someArgs :=
  C76_args_round_trip someArgs _ someArgs_ok (List.Perm.swap _ _ _)
/-- Letters of other alphabets, and a no-break space inside. -/
example : ∃ m, parseArgs (text ";näme=Jürgen\u00a0Ωμέγα✓") = .ok m ∧ m.Perm [(text "näme", text "Jürgen\u00a0Ωμέγα✓")] := by
  rw [show text ";näme=Jürgen\u00a0Ωμέγα✓" = semicolonString [(text "näme", text "Jürgen\u00a0Ωμέγα✓")] by decide +kernel]
  exact C76_args_round_trip [(text "näme", text "Jürgen\u00a0Ωμέγα✓")] [(text "näme", text "Jürgen\u00a0Ωμέγα✓")]
    ⟨by decide +kernel, by
      intro e he
      rw [List.mem_singleton.1 he]
      exact ⟨⟨"näme".toList, by decide +kernel, by decide +kernel, by simp [White]; decide +kernel, by simp [White]; decide +kernel⟩, by decide +kernel, by decide +kernel⟩, by
      intro e he
      rw [List.mem_singleton.1 he]
      exact ⟨"Jürgen\u00a0Ωμέγα✓".toList, by decide +kernel, by decide +kernel, by simp [White]; decide +kernel, by simp [White]; decide +kernel⟩⟩ (List.Perm.refl _)
example : semicolonString someArgs = text ";branch=z9hG4bK776;lr" := by decide +kernel

/-! ## C72 -/

/-- C72: a request URI survives, whatever the order in which Go visits its arguments. -/
theorem C72_request_round_trip (s : Request) (o : Args) (ho : o.Perm s.args)
    (ht : s.uriType = text "sip" ∨ s.uriType = text "sips" ∨ s.uriType = text "tel")
    (hu : ∀ b ∈ s.user, b ≠ 0x40 ∧ b ≠ 0x3b) (hh : ∀ b ∈ s.host, b ≠ 0x3a ∧ b ≠ 0x3b) (hp : ∀ b ∈ s.port, b ≠ 0x3b)
    (ha : ArgMap s.args) :
    ∃ a, newSIPRequest { s with args := o }.bytes = .ok { s with args := a } ∧ a.Perm s.args := by
  refine ⟨o, newSIPRequest_bytes { s with args := o } ⟨?_, fun b hb => ⟨(hu b hb).2, (hu b hb).1⟩,
    fun b hb => ⟨(hh b hb).2, (hh b hb).1⟩, hp, argMap_perm ha ho⟩, ho⟩
  show s.uriType ∈ schemes
  rcases ht with h | h | h <;> rw [h] <;> decide +kernel

/-- The request URI of the examples. -/
def someRequest : Request := ⟨text "sips", text "alice", text "atlanta.com", text "5061", someArgs⟩

example : ∃ a, newSIPRequest { someRequest with args := someArgs.reverse }.bytes = .ok { someRequest with args := a } ∧
    a.Perm someArgs :=
  C72_request_round_trip someRequest someArgs.reverse (List.reverse_perm _) (.inr (.inl rfl)) (by decide +kernel)
    (by decide +kernel) (by decide +kernel) someArgs_ok
example : someRequest.bytes = text "sips:alice@atlanta.com:5061;branch=z9hG4bK776;lr" := by decide +kernel

/-! ## C73 -/

/-- C73: a Via header survives. -/
theorem C73_via_round_trip (s : Via) (o : Args) (ho : o.Perm s.args)
    (ht : s.trans = text "UDP" ∨ s.trans = text "TCP" ∨ s.trans = text "TLS" ∨ s.trans = text "SCTP")
    (hh : ∀ b ∈ s.host, b ≠ 0x20 ∧ b ≠ 0x3a ∧ b ≠ 0x3b) (hp : ∀ b ∈ s.port, b ≠ 0x20 ∧ b ≠ 0x3b) (ha : ArgMap s.args) :
    ∃ a, newSIPVia { s with args := o }.bytes = .ok { s with args := a } ∧ a.Perm s.args := by
  refine ⟨o, newSIPVia_bytes { s with args := o } ⟨?_, fun b hb => ⟨(hh b hb).2.2, (hh b hb).2.1, (hh b hb).1⟩,
    fun b hb => ⟨(hp b hb).2, (hp b hb).1⟩, argMap_perm ha ho⟩, ho⟩
  show s.trans ∈ transports
  rcases ht with h | h | h | h <;> rw [h] <;> decide +kernel

/-- The Via header of the examples. -/
def someVia : Via := ⟨text "SCTP", text "pc33.atlanta.com", text "5060", someArgs⟩

example : ∃ a, newSIPVia { someVia with args := someArgs.reverse }.bytes = .ok { someVia with args := a } ∧ a.Perm someArgs :=
  C73_via_round_trip someVia someArgs.reverse (List.reverse_perm _) (.inr (.inr (.inr rfl))) (by decide +kernel)
    (by decide +kernel) someArgs_ok
example : someVia.bytes = text "SIP/2.0/SCTP pc33.atlanta.com:5060;branch=z9hG4bK776;lr" := by decide +kernel

/-! ## C74 -/

/-- C74: the parts of an address survive (the display name does not, see C75), for every display name of ASCII characters
without `:` and `;`. -/
theorem C74_user_round_trip (U : Unicode) (s : User) (o : Args) (ho : o.Perm s.args)
    (ht : s.uriType = text "sip" ∨ s.uriType = text "sips" ∨ s.uriType = text "tel")
    (hn : ∀ b ∈ s.name, b < 0x80 ∧ b ≠ 0x3a ∧ b ≠ 0x3b)
    (hu : ∀ b ∈ s.user, b ≠ 0x20 ∧ b ≠ 0x3b ∧ b ≠ 0x3e ∧ b ≠ 0x40) (hh : ∀ b ∈ s.host, b ≠ 0x20 ∧ b ≠ 0x3a ∧ b ≠ 0x3b ∧ b ≠ 0x3e)
    (hp : ∀ b ∈ s.port, b ≠ 0x20 ∧ b ≠ 0x3b ∧ b ≠ 0x3e) (ha : ArgMap s.args) :
    ∃ a, newSIPUser ({ s with args := o }.bytes U) = .ok { s with name := [], args := a } ∧ a.Perm s.args := by
  refine ⟨o, newSIPUser_bytes U { s with args := o } ⟨?_, fun b hb => ?_, fun b hb => ?_, fun b hb => ?_, argMap_perm ha ho⟩
    (fun b hb => (hn b hb).1) (fun h => (hn _ h).2.1 rfl) (fun h => (hn _ h).2.2 rfl), ho⟩
  · show s.uriType ∈ schemes
    rcases ht with h | h | h <;> rw [h] <;> decide +kernel
  · obtain ⟨h1, h2, h3, h4⟩ := hu b hb; exact ⟨h2, h4, h3, h1⟩
  · obtain ⟨h1, h2, h3, h4⟩ := hh b hb; exact ⟨h3, h2, h4, h1⟩
  · obtain ⟨h1, h2, h3⟩ := hp b hb; exact ⟨h2, h3, h1⟩

/-- The address of the examples. -/
def someUser : User := ⟨text "sip", text "Alice \"A\" Smith", text "alice", text "atlanta.com", text "5060", someArgs⟩

example (U : Unicode) : ∃ a, newSIPUser ({ someUser with args := someArgs.reverse }.bytes U) =
    .ok { someUser with name := [], args := a } ∧ a.Perm someArgs :=
  C74_user_round_trip U someUser someArgs.reverse (List.reverse_perm _) (.inl rfl) (by decide +kernel) (by decide +kernel)
    (by decide +kernel) (by decide +kernel) someArgs_ok
example (U : Unicode) : someUser.bytes U =
    text "\"Alice \\\"A\\\" Smith\" <sip:alice@atlanta.com:5060>;branch=z9hG4bK776;lr" := by
  have h : quote U someUser.name = text "\"Alice \\\"A\\\" Smith\"" := by
    rw [quote, if_pos (by decide +kernel)]; decide +kernel
  have hn : nameBytes U someUser.name = text "\"Alice \\\"A\\\" Smith\" " := by
    rw [nameBytes, if_pos (by decide +kernel), if_neg (by decide +kernel), h]; decide +kernel
  rw [User.bytes, hn]
  decide +kernel

/-! ## C75 -/

/-- C75 fails for every input: `NewSIPUser` never returns a display name. -/
theorem C75_display_name_refuted (s : Bytes) (u : User) (h : newSIPUser s = .ok u) : u.name = [] := by
  obtain ⟨q, hq⟩ := newSIPUser_total s
  rw [hq] at h
  cases hp : parseArgs s with
  | ok a =>
    rw [hp, Res.bind_ok] at h
    simp only [Res.ok.injEq] at h
    rw [← h]
  | err e => rw [hp] at h; simp at h
  | panic => rw [hp] at h; simp at h
  | diverge => rw [hp] at h; simp at h

example : ∃ u, newSIPUser (text "\"Bob\" <sip:bob@biloxi.com>;tag=a6c85cf") = .ok u ∧ u.name = [] ∧ u.user = text "bob" :=
  ⟨⟨text "sip", [], text "bob", text "biloxi.com", [], [(text "tag", text "a6c85cf")]⟩, by decide +kernel, rfl, rfl⟩

/-! ## C77 -/

/-- C77 fails: for every argument name `k`, the text `;k=` makes `ParseArgs` panic (and with it every constructor that
parses arguments). -/
theorem C77_args_panic_refuted (k : Bytes) (hk : ArgKey k) :
    parseArgs (0x3b :: (k ++ [0x3d])) = .panic ∧ newSIPRequest (0x3b :: (k ++ [0x3d])) = .panic ∧
    newSIPUser (0x3b :: (k ++ [0x3d])) = .panic := by
  have hp : parseArgs (0x3b :: (k ++ [0x3d])) = .panic := by
    have ht : ArgText (k ++ [0x3d]) := by
      have := argText_append hk.toArgText (b := [0x3d]) (argText_ascii (by simp [Printable]) (by simp) (by simp)) hk.nonempty (by simp) [] (by simp)
      simpa [utf8] using this
    have hl := parseList_items (k ++ [0x3d]) [] (by simpa using ht) (by simp)
    simp only [List.map_nil, List.flatten_nil, List.append_nil] at hl
    have := parseArgs_split [] (k ++ [0x3d]) (by simp)
    rw [List.nil_append] at this
    rw [this, parseArgsPairs, argText_trim ht, hl, pairLoop, parsePair_eq _ _ _ hk.noEq, if_pos (Or.inl rfl)]
    rfl
  obtain ⟨q, hq⟩ := newSIPRequest_total (0x3b :: (k ++ [0x3d]))
  obtain ⟨q', hq'⟩ := newSIPUser_total (0x3b :: (k ++ [0x3d]))
  refine ⟨hp, ?_, ?_⟩
  · rw [hq, hp]; rfl
  · rw [hq', hp]; rfl

theorem someKey_ok : ArgKey (text "tag") :=
  ⟨argText_ascii (by simp only [Printable]; decide +kernel) (by decide +kernel) (by decide +kernel), by decide +kernel, by decide +kernel⟩

example : parseArgs (text ";tag=") = .panic := by
  rw [show text ";tag=" = 0x3b :: (text "tag" ++ [0x3d]) from by decide +kernel]
  exact (C77_args_panic_refuted (text "tag") someKey_ok).1
example : newSIPVia (text "SIP/2.0/UDP host;rport=") = .panic := by decide +kernel

/-- C77 (partial), exactly: `ParseArgsPairs` panics if and only if an element of the list that `ParseList` finds has no value
behind its `=` or a lone quote, and returns in every other case. -/
theorem C77_args_panic_iff (s : Bytes) :
    (parseArgsPairs s = .panic ↔ ∃ p ∈ parseList (trimSpace s), NoValue p) ∧
    ((∀ p ∈ parseList (trimSpace s), ¬ NoValue p) → ∃ m, parseArgsPairs s = .ok m) := by
  rcases pairLoop_cases (parseList (trimSpace s)) [] with ⟨h1, h2⟩ | ⟨h1, m, h2⟩
  · refine ⟨⟨fun _ => h1, fun _ => h2⟩, fun h => ?_⟩
    obtain ⟨p, hp, hn⟩ := h1
    exact absurd hn (h p hp)
  · refine ⟨⟨fun h => ?_, fun ⟨p, hp, hn⟩ => absurd hn (h1 p hp)⟩, fun _ => ⟨m, h2⟩⟩
    rw [parseArgsPairs, h2] at h
    simp at h

theorem noValue_last {p : Bytes} (h : NoValue p) : p.getLast? = some 0x3d ∨ p.getLast? = some 0x22 := by
  obtain ⟨k, v, rfl, -, rfl | rfl⟩ := h <;> simp

example : ∃ m, parseArgsPairs (text "a=1, b=\"x;y\"; c") = .ok m :=
  (C77_args_panic_iff _).2 fun p hp hn => by
    have h : ∀ p ∈ parseList (trimSpace (text "a=1, b=\"x;y\"; c")), p = text "b=\"x;y\"" ∨
      (p.getLast? ≠ some 0x3d ∧ p.getLast? ≠ some 0x22) := by decide +kernel
    rcases h p hp with rfl | h
    · obtain ⟨k, v, e, hk, hv⟩ := hn
      have hi : index 0x3d (text "b=\"x;y\"") = k.length := by rw [e]; exact index_append hk _
      have h1 : index 0x3d (text "b=\"x;y\"") = 1 := by decide +kernel
      have hl := congrArg List.length e
      have h7 : (text "b=\"x;y\"").length = 7 := by decide +kernel
      rw [h7, List.length_append, List.length_cons] at hl
      rcases hv with rfl | rfl <;> simp at hl <;> omega
    · rcases noValue_last hn with h' | h'
      · exact h.1 h'
      · exact h.2 h'
example : parseArgsPairs (text "a=1, b=") = .panic :=
  (C77_args_panic_iff _).1.2 ⟨text "b=", by decide +kernel, text "b", [], by decide +kernel, by decide +kernel, .inl rfl⟩

/-- C77 (partial): on any bytes in which every `=` is directly followed by a value, all of them return. -/
theorem C77_args_return_partial (U : Unicode) (s : Bytes) (hv : ValuesPresent s) :
    (∃ m, parseArgs s = .ok m) ∧ (∃ m, parseArgsPairs s = .ok m) ∧ (∃ u, newSIPUser s = .ok u) ∧ (∃ v, newSIPVia s = .ok v) ∧
    (∃ r, newSIPRequest s = .ok r) ∧ ∃ a, newSIPAuth U s = .ok a :=
  ⟨parseArgs_vp hv, parseArgsPairs_vp hv, newSIPUser_vp hv, newSIPVia_vp hv, newSIPRequest_vp hv,
    newSIPAuth_vp U hv⟩

/-- No argument at all is fine too: text without `=`. -/
theorem C77_no_values_partial (U : Unicode) (s : Bytes) (hv : Without 0x3d s) :
    (∃ m, parseArgs s = .ok m) ∧ (∃ m, parseArgsPairs s = .ok m) ∧ (∃ u, newSIPUser s = .ok u) ∧ (∃ v, newSIPVia s = .ok v) ∧
    (∃ r, newSIPRequest s = .ok r) ∧ ∃ a, newSIPAuth U s = .ok a :=
  C77_args_return_partial U s (vp_of_not_mem hv)

/-- Decides `StartsValue` on concrete texts. -/
def startsValueB : Bytes → Bool
  | [] => false
  | c :: t => (0x21 ≤ c && c ≤ 0x7e && c != 0x22 && c != 0x2c && c != 0x3b && c != 0x5c) || (c == 0x22 && match t with
    | [] => false
    | d :: _ => 0x21 ≤ d && d ≤ 0x7e && d != 0x22 && d != 0x2c && d != 0x3b && d != 0x5c)

/-- Decides `ValuesPresent` on concrete texts. -/
def valuesPresentB : Bytes → Bool
  | [] => true
  | b :: r => (b != 0x3d || startsValueB r) && valuesPresentB r

theorem valuesPresent_of {s : Bytes} (h : valuesPresentB s = true) : ValuesPresent s := by
  induction s with
  | nil => exact vp_nil
  | cons b r ih =>
    rw [valuesPresentB, Bool.and_eq_true] at h
    intro x t e
    cases x with
    | nil =>
      obtain ⟨rfl, rfl⟩ := List.cons.inj e
      have h1 := h.1
      rw [bne_self_eq_false, Bool.false_or] at h1
      cases r with
      | nil => simp [startsValueB] at h1
      | cons c t =>
        by_cases hc : c = 0x22
        · subst hc
          cases t with
          | nil => simp [startsValueB] at h1
          | cons d t =>
            refine .inr ⟨d, t, rfl, ?_⟩
            simp only [startsValueB, Bool.or_eq_true, Bool.and_eq_true, decide_eq_true_eq, bne_iff_ne] at h1
            rcases h1 with h1 | h1
            · simp at h1
            · obtain ⟨-, ⟨⟨⟨⟨h1, h2⟩, h3⟩, h4⟩, h5⟩, h6⟩ := h1
              exact ⟨h1, h2, h3, h4, h5, h6⟩
        · refine .inl ⟨c, t, rfl, ?_⟩
          simp only [startsValueB, Bool.or_eq_true, Bool.and_eq_true, decide_eq_true_eq, bne_iff_ne,
            beq_iff_eq, hc, false_and, or_false] at h1
          obtain ⟨⟨⟨⟨⟨h1, h2⟩, h3⟩, h4⟩, h5⟩, h6⟩ := h1
          exact ⟨h1, h2, h3, h4, h5, h6⟩
    | cons y x => exact ih h.2 x t (List.cons.inj e).2

example (U : Unicode) : ∃ u, newSIPUser (text "<sip:bob@b.com>;tag=\"a6\";q=0.5") = .ok u :=
  (C77_args_return_partial U _ (valuesPresent_of (by decide +kernel))).2.2.1
example (U : Unicode) : ∃ v, newSIPVia (text "SIP/2.0/UDP host:5060;rport") = .ok v :=
  (C77_no_values_partial U _ (by simp only [Without]; decide +kernel)).2.2.2.1

end Verif.Props
