import Verif.Props.SipsSend
/-!
# Properties of package `sips`: the typed accessors of a header map (C110)
-/
namespace Verif.Props
open Verif.Sips Verif.Str Verif.Spec.Sips

/-! ## C110 -/

/-- From the header map `h` to `h'` only the header `n` changes: it has the one value `v`, under every spelling of its name;
every other header is as before. -/
def Puts (U : Unicode) (h h' : Hdr) (n : String) (v : Bytes) : Prop :=
  ∀ m : Bytes, (∀ b ∈ m, b < 0x80) →
    (SameText m (text n) → getHeader U h' m = [v] ∧ getFirstHeader U h' m = v) ∧
    (¬ SameText m (text n) → getHeader U h' m = getHeader U h m ∧ getFirstHeader U h' m = getFirstHeader U h m)

theorem getHeader_first (U : Unicode) (h : Hdr) (n : Bytes) : getFirstHeader U h n = (getHeader U h n).head?.getD [] := by
  simp only [getFirstHeader, getHeader]
  by_cases h1 : (mget h (toLower U n)).isSome
  · rw [if_pos h1, if_pos h1]
    cases h2 : Sips.vals h (toLower U n) with
    | cons x l => simp
    | nil => cases h3 : Sips.vals h (compactOf (toLower U n)) <;> simp
  · rw [if_neg h1, if_neg h1]; rfl

theorem puts_set (U : Unicode) {h : Hdr} (hne : ∀ e ∈ h, e.2 ≠ []) (k : Bytes) (n : String) (v : Bytes)
    (hn : (∀ b ∈ k, b < 0x80) ∧ k.map lowerAscii = (text n).map lowerAscii) : Puts U h (setFirstHeader U h k v) n v := by
  obtain ⟨hk, hkn⟩ := hn
  intro m hm
  have key : getHeader U (setFirstHeader U h k v) m = if m.map lowerAscii = (text n).map lowerAscii then [v] else getHeader U h m := by
    simp only [getHeader, setFirstHeader, Sips.vals, mget_mset, toLower_ascii U hk, toLower_ascii U hm, ← hkn]
    by_cases hs : m.map lowerAscii = k.map lowerAscii
    · rw [if_pos hs, if_pos hs]; simp
    · rw [if_neg hs, if_neg hs]
      by_cases h1 : (mget h (m.map lowerAscii)).isSome
      · obtain ⟨x, hx⟩ := Option.isSome_iff_exists.1 h1
        have := hne _ (mget_mem hx)
        have hl : 0 < x.length := List.length_pos_iff.2 this
        simp [hx, hl]
      · simp [h1]
  refine ⟨fun hs => ?_, fun hs => ?_⟩
  · have hs : m.map lowerAscii = (text n).map lowerAscii := hs
    rw [getHeader_first, key, if_pos hs]; simp
  · have hs : ¬ m.map lowerAscii = (text n).map lowerAscii := hs
    rw [getHeader_first, getHeader_first U h, key, if_neg hs]; simp

/-- C110: every setter that takes a text changes exactly the header it is named after. -/
theorem C110_text_setters (U : Unicode) (h : Hdr) (hne : ∀ e ∈ h, e.2 ≠ []) (v : Bytes) :
    Puts U h (setCallID U h v) "Call-ID" v ∧ Puts U h (setReasonPhrase U h v) "Reason-Phrase" v ∧
    Puts U h (setSupported U h v) "Supported" v ∧ Puts U h (setSubject U h v) "Subject" v ∧
    Puts U h (setContentType U h v) "Content-Type" v ∧ Puts U h (setAllow U h v) "Allow" v := by
  refine ⟨?_, ?_, ?_, ?_, ?_, ?_⟩ <;> exact puts_set U hne _ _ v (by decide +kernel)

/-- The header map of the examples: one value, several values, an empty value. -/
def plainHdr : Hdr := [(text "call-id", [text "a84b4c76e66710"]), (text "via", [text "x", text "y"]), (text "s", [[]])]

theorem plainHdr_ok : ∀ e ∈ plainHdr, e.2 ≠ [] := by decide +kernel

example (U : Unicode) : getFirstHeader U (setSubject U plainHdr (text "hello")) (text "SUBJECT") = text "hello" ∧
    getHeader U (setSubject U plainHdr (text "hello")) (text "Via") = getHeader U plainHdr (text "Via") := by
  have h := (C110_text_setters U plainHdr plainHdr_ok (text "hello")).2.2.2.1
  exact ⟨((h (text "SUBJECT") (by decide +kernel)).1 (by simp only [SameText]; decide +kernel)).2,
    ((h (text "Via") (by decide +kernel)).2 (by simp only [SameText]; decide +kernel)).1⟩

/-- C110: every setter that takes a structure stores its text, under the header it is named after. -/
theorem C110_part_setters (U : Unicode) (h : Hdr) (hne : ∀ e ∈ h, e.2 ≠ []) (u : User) (c : Cseq) (v : Via) :
    Puts U h (setSIPFrom U h u) "From" (u.bytes U) ∧ Puts U h (setSIPTo U h u) "To" (u.bytes U) ∧
    Puts U h (setSIPContact U h u) "Contact" (u.bytes U) ∧ Puts U h (setSIPCseq U h c) "CSeq" c.bytes ∧
    Puts U h (setSIPVia U h v) "Via" v.bytes := by
  refine ⟨?_, ?_, ?_, ?_, ?_⟩ <;> exact puts_set U hne _ _ _ (by decide +kernel)

example (U : Unicode) : getFirstHeader U (setSIPCseq U plainHdr ⟨text "1", text "ACK"⟩) (text "cseq") = text "1 ACK" :=
  ((((C110_part_setters U plainHdr plainHdr_ok someUser ⟨text "1", text "ACK"⟩ someVia).2.2.2.1 (text "cseq") (by decide +kernel)).1
    (by simp only [SameText]; decide +kernel)).2).trans (by decide +kernel)

/-- C110: numbers are stored in decimal, with a minus sign if negative. -/
theorem C110_number_setters (U : Unicode) (h : Hdr) (hne : ∀ e ∈ h, e.2 ≠ []) (i : Int) :
    ∃ d, (∃ t n, IsDecimal t n ∧ ((0 ≤ i ∧ d = t ∧ i = n) ∨ (i < 0 ∧ d = 0x2d :: t ∧ i = -n))) ∧
      Puts U h (setContentLength U h i) "Content-Length" d ∧ Puts U h (setMaxForwards U h i) "Max-Forwards" d := by
  refine ⟨itoa i, ?_, puts_set U hne _ _ _ (by decide +kernel), puts_set U hne _ _ _ (by decide +kernel)⟩
  by_cases hi : i < 0
  · refine ⟨itoa ((-i).toNat : Int), (-i).toNat, itoa_nat _, .inr ⟨hi, ?_, by omega⟩⟩
    rw [itoa, if_pos hi, itoa, if_neg (by omega), show (((-i).toNat : Nat) : Int).natAbs = i.natAbs by omega]
  · refine ⟨itoa i, i.toNat, ?_, .inl ⟨by omega, rfl, by omega⟩⟩
    have := itoa_nat i.toNat
    rwa [show ((i.toNat : Nat) : Int) = i by omega] at this

example (U : Unicode) : ∃ t, IsDecimal t 70 ∧ getFirstHeader U (setMaxForwards U plainHdr 70) (text "MAX-FORWARDS") = t := by
  obtain ⟨d, ⟨t, n, h1, ⟨-, rfl, h2⟩ | ⟨h2, -⟩⟩, -, h⟩ := C110_number_setters U plainHdr plainHdr_ok 70
  · obtain rfl : n = 70 := by omega
    exact ⟨_, h1, ((h (text "MAX-FORWARDS") (by decide +kernel)).1 (by simp only [SameText]; decide +kernel)).2⟩
  · omega

/-- C110: what the typed setters store, the typed getters return: lengths in the range of `int`, CSeq without a blank in the
number, and addresses and Via values of the shapes of C73 and C74 (whose display name is lost, C75); the arguments are
the same in any order. -/
theorem C110_set_get (U : Unicode) (h : Hdr) :
    (∀ i : Int, -2 ^ 63 ≤ i → i < 2 ^ 63 → getContentLength U (setContentLength U h i) = .ok i) ∧
    (∀ v, getCallID U (setCallID U h v) = v) ∧
    (∀ c : Cseq, Without 0x20 c.id → getSIPCseq U (setSIPCseq U h c) = c) ∧
    (∀ (v : Via) (o : Args), o.Perm v.args →
      (v.trans = text "UDP" ∨ v.trans = text "TCP" ∨ v.trans = text "TLS" ∨ v.trans = text "SCTP") →
      (∀ b ∈ v.host, b ≠ 0x20 ∧ b ≠ 0x3a ∧ b ≠ 0x3b) → (∀ b ∈ v.port, b ≠ 0x20 ∧ b ≠ 0x3b) → ArgMap v.args →
      ∃ a, getSIPVia U (setSIPVia U h { v with args := o }) = .ok { v with args := a } ∧ a.Perm v.args) ∧
    (∀ (u : User) (o : Args), o.Perm u.args → (u.uriType = text "sip" ∨ u.uriType = text "sips" ∨ u.uriType = text "tel") →
      (∀ b ∈ u.name, b < 0x80 ∧ b ≠ 0x3a ∧ b ≠ 0x3b) → (∀ b ∈ u.user, b ≠ 0x20 ∧ b ≠ 0x3b ∧ b ≠ 0x3e ∧ b ≠ 0x40) →
      (∀ b ∈ u.host, b ≠ 0x20 ∧ b ≠ 0x3a ∧ b ≠ 0x3b ∧ b ≠ 0x3e) → (∀ b ∈ u.port, b ≠ 0x20 ∧ b ≠ 0x3b ∧ b ≠ 0x3e) → ArgMap u.args →
      ∃ a, a.Perm u.args ∧ getSIPFrom U (setSIPFrom U h { u with args := o }) = .ok { u with name := [], args := a } ∧
        getSIPTo U (setSIPTo U h { u with args := o }) = .ok { u with name := [], args := a } ∧
        getSIPContact U (setSIPContact U h { u with args := o }) = .ok { u with name := [], args := a }) := by
  have key : ∀ k v, getFirstHeader U (setFirstHeader U h k v) k = v := fun k v => by rw [getFirst_set, if_pos rfl]
  refine ⟨fun i h1 h2 => ?_, fun v => key _ v, fun c hc => ?_, fun v o ho ht hh hp ha => ?_, fun u o ho ht hn hu hh hp ha => ?_⟩
  · rw [getContentLength, setContentLength, key, atoi_itoa h1 h2]
  · rw [getSIPCseq, setSIPCseq, key, C69_cseq_round_trip c hc]
  · rw [getSIPVia, setSIPVia, key]
    exact C73_via_round_trip v o ho ht hh hp ha
  · obtain ⟨a, h1, h2⟩ := C74_user_round_trip U u o ho ht hn hu hh hp ha
    refine ⟨a, h2, ?_, ?_, ?_⟩
    · rw [getSIPFrom, setSIPFrom, key, h1]
    · rw [getSIPTo, setSIPTo, key, h1]
    · rw [getSIPContact, setSIPContact, key, h1]

example (U : Unicode) : getContentLength U (setContentLength U plainHdr 4096) = .ok 4096 ∧
    getSIPCseq U (setSIPCseq U plainHdr ⟨text "314159", text "INVITE"⟩) = ⟨text "314159", text "INVITE"⟩ :=
  ⟨(C110_set_get U plainHdr).1 4096 (by decide) (by decide), (C110_set_get U plainHdr).2.2.1 _ (by simp only [Without]; decide +kernel)⟩

end Verif.Props
