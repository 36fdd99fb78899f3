import Verif.Spec.SipsLife
import Verif.Props.SipsMsg
/-!
# Property C159: a message that was received can be written
-/
namespace Verif.Props
open Verif Verif.Str Verif.Sips Verif.Spec Verif.Spec.Sips

section
variable (U : Unicode)

/-- It is known whether the object is a request or a response. -/
def Started (s : Sip) : Prop := s.isResponse = true ∨ s.request.isSome = true

/-- Which objects a program can have. -/
def Sane (s : Sip) : Prop := ∃ h, s.headers = some h ∧ (h = [] ∨ Started s)

theorem started_firstLine (l : Bytes) (s : Sip) : (parseFirstLine U l s).2.headers = s.headers ∧
    (Started s → Started (parseFirstLine U l s).2) ∧ ((parseFirstLine U l s).1 = .ok () → Started (parseFirstLine U l s).2) := by
  rw [parseFirstLine]
  rcases hw : splitN c!" " 2 l with _ | ⟨w0, _ | ⟨w1, _ | ⟨w2, _ | ⟨w3, ws⟩⟩⟩⟩
  all_goals try exact ⟨rfl, id, fun h => by simp [GoM.fail] at h⟩
  simp only
  by_cases hp : hasPrefix w0 b!"SIP" = true
  · simp only [hp, if_true, GoM.bind_apply, GoM.modify]
    rcases getSIPVersion U w0 <;> simp only [GoM.bind_apply, GoM.modify, GoM.fail] <;> try simp [Started]
    rcases atoi w1 <;> simp [GoM.lift]
  · simp only [hp, GoM.bind_apply, GoM.modify]
    rcases getSIPMethod U w0 <;> simp [GoM.bind_apply, GoM.modify, GoM.fail] <;> try exact id
    rcases newSIPRequest w1 <;> simp [GoM.lift] <;> try exact id
    rcases getSIPVersion U w2 <;> simp [GoM.bind_apply, GoM.modify, GoM.fail, Started]

theorem started_header (l : Bytes) (s : Sip) (h : Hdr) (hs : s.headers = some h) :
    ∃ h', (parseHeader U l s).2.headers = some h' ∧ (parseHeader U l s).2.isResponse = s.isResponse ∧
      (parseHeader U l s).2.request = s.request := by
  rw [parseHeader.eq_def]
  rcases l with _ | ⟨b, l⟩
  · exact ⟨h, hs, rfl, rfl⟩
  simp only
  split
  · simp only [GoM.bind_apply, GoM.get]
    rcases goIndex (vals s.hdr s.last) ((vals s.hdr s.last).length - 1) with old | _ | _ | _ <;> simp [GoM.lift, hs]
    generalize goSet (vals s.hdr s.last) _ _ = q
    cases q <;> simp [putHeader, hs]
  split
  · simp only [GoM.bind_apply, GoM.lift]
    generalize goSlice (b :: l) 0 _ = q
    cases q <;> simp only [hs, Option.some.injEq, exists_eq_left', and_self]
    generalize goSlice (b :: l) _ _ = q
    cases q <;> simp [putHeader, GoM.get, GoM.modify, hs]
  · exact ⟨h, hs, rfl, rfl⟩

theorem sane_line (first : Bool) (l : Bytes) (s : Sip) (hs : Sane s) (hf : first = false → Started s) :
    Sane (parseLine U first l s).2 ∧ ((parseLine U first l s).1 = .ok () → Started (parseLine U first l s).2) := by
  obtain ⟨h, h1, h2⟩ := hs
  cases first with
  | true =>
    obtain ⟨g1, g2, g3⟩ := started_firstLine U l s
    exact ⟨⟨h, g1.trans h1, h2.imp id g2⟩, g3⟩
  | false =>
    obtain ⟨h', g1, g2, g3⟩ := started_header U l s h h1
    have : Started (parseLine U false l s).2 := by
      show Started (parseHeader U l s).2
      rw [Started, g2, g3]; exact hf rfl
    exact ⟨⟨h', g1, .inr this⟩, fun _ => this⟩

theorem sane_lineLoop (fuel : Nat) (first : Bool) (buf : Bytes) (off : Nat) (s : Sip) (r : Rd) (hs : Sane s)
    (hf : first = false → Started s) : Sane (lineLoop U fuel first buf off s r).2.1 := by
  induction fuel generalizing first buf off s r with
  | zero => exact hs
  | succ fuel ih =>
    rw [lineLoop]
    rcases r.readSlice c!"\n" with ⟨line, e, r'⟩ | _ | _ | _ <;> simp only <;> try exact hs
    split
    · exact hs
    split
    · exact hs
    split
    · exact hs
    have hk := sane_line U first (trim (fun b => b == 13 || b == 10) line) s hs hf
    rcases hl : parseLine U first (trim (fun b => b == 13 || b == 10) line) s with ⟨q, s'⟩
    rw [hl] at hk
    rcases q with _ | _ | _ | _ <;> simp only
    · exact ih _ _ _ _ _ hk.1 fun _ => hk.2 rfl
    all_goals exact hk.1

theorem fillHeader_keeps (s : Sip) : (fillHeader U s).2.headers = s.headers ∧ (fillHeader U s).2.isResponse = s.isResponse ∧
    (fillHeader U s).2.request = s.request := by
  simp only [fillHeader, GoM.bind_apply, GoM.get, GoM.lift]
  rcases getSIPContact U s.hdr <;> simp [GoM.modify]
  rcases getSIPFrom U s.hdr <;> simp
  rcases getSIPTo U s.hdr <;> simp
  rcases getSIPVia U s.hdr <;> simp

theorem sane_finish (b : Bytes) (o : Nat) (s : Sip) (r : Rd) (hs : Sane s) :
    Sane (finish U b o s r).2.1 ∧ ((finish U b o s r).1 = .ok () → Started (finish U b o s r).2.1) := by
  obtain ⟨h, h1, h2⟩ := hs
  obtain ⟨g1, g2, g3⟩ := fillHeader_keeps U s
  rw [finish]
  rcases hf : fillHeader U s with ⟨q, s'⟩
  rw [hf] at g1 g2 g3
  simp only at g1 g2 g3
  have hst : Started s → Started s' := by rw [Started, Started, g2, g3]; exact id
  have hsn : Sane s' := ⟨h, g1.trans h1, h2.imp id hst⟩
  rcases q with _ | _ | _ | _ <;> simp only <;> try exact ⟨hsn, fun e => by simp at e⟩
  have hh : s'.hdr = h := by simp [Sip.hdr, g1, h1]
  rcases hb : fillBody U s'.hdr r ((b.length : Int) - o) with ⟨q, r'⟩
  rcases q with body | _ | _ | _ <;> simp only <;> try exact ⟨hsn, fun e => by simp at e⟩
  have hne : h ≠ [] := by
    rintro rfl
    rw [hh] at hb
    have : getContentLength U [] = .err .other := by
      simp [getContentLength, getFirstHeader, vals, mget]; decide
    simp [fillBody, this] at hb
  rcases goSlice (b ++ body) 0 o <;> rcases goSlice (b ++ body) o ((b ++ body).length) <;> simp only <;>
    try exact ⟨hsn, fun e => by simp at e⟩
  have := hst (h2.resolve_left hne)
  exact ⟨⟨h, g1.trans h1, .inr this⟩, fun _ => this⟩

theorem sane_parse (s : Sip) (r : Rd) (hs : Sane s) :
    Sane (parse U s r).2.1 ∧ ((parse U s r).1 = .ok () → Started (parse U s r).2.1) := by
  rw [parse]
  have h := sane_lineLoop U (r.all.length + 2) true [] 0 s r hs (by simp)
  rcases hl : lineLoop U (r.all.length + 2) true [] 0 s r with ⟨q, s', r'⟩
  rw [hl] at h
  rcases q with ⟨b, o⟩ | _ | _ | _ <;> simp only
  · exact sane_finish U b o s' r' h
  all_goals exact ⟨h, fun e => by simp at e⟩

theorem sane_bytes (order : Hdr → Hdr) (s : Sip) (hs : Sane s) : Sane (s.bytes U order).2 := by
  obtain ⟨h, h1, h2⟩ := hs
  rw [Sip.bytes, h1]
  rcases hf : firstLineBytes s with l | _ | _ | _ <;> simp only <;> try exact ⟨h, h1, h2⟩
  refine ⟨_, rfl, .inr ?_⟩
  rw [firstLineBytes] at hf
  split at hf
  · rename_i e; exact .inl e
  · rcases hr : s.request with _ | q
    · simp [hr] at hf
    · exact .inr (by simp [hr])

theorem sane_fill (s : Sip) (header : Option Hdr) (body : Bytes) (hs : Sane s) (hst : Started s) : Sane (s.fill header body) := by
  obtain ⟨h, h1, _⟩ := hs
  have key : Sane (if (header.getD []).length > 0 then s.setHeader header else s) ∧
      Started (if (header.getD []).length > 0 then s.setHeader header else s) := by
    cases header with
    | none => exact ⟨⟨h, h1, .inr hst⟩, hst⟩
    | some x =>
      split
      · exact ⟨⟨x, rfl, .inr hst⟩, hst⟩
      · exact ⟨⟨h, h1, .inr hst⟩, hst⟩
  simp only [Sip.fill]
  split
  · exact key.1
  · exact key.1

theorem used_sane {s : Sip} (h : Used U s) : Sane s := by
  induction h with
  | new => exact ⟨[], rfl, .inl rfl⟩
  | request m q header body => exact sane_fill _ header body ⟨[], rfl, .inl rfl⟩ (.inr rfl)
  | response c header body => exact sane_fill _ header body ⟨[], rfl, .inl rfl⟩ (.inl rfl)
  | parse r _ ih => exact (sane_parse U _ r ih).1
  | bytes order _ ih => exact sane_bytes U order _ ih
  | body b _ ih => exact ih
  | header h _ hst _ => exact ⟨h, rfl, .inr (hst.imp id Option.isSome_iff_ne_none.2)⟩

theorem sane_writes (order : Hdr → Hdr) (m : Sip) (hs : Sane m) (hst : Started m) : ∃ w, (m.bytes U order).1 = .ok w := by
  obtain ⟨hd, e1, _⟩ := hs
  obtain ⟨l, hl⟩ : ∃ l, firstLineBytes m = .ok l := by
    rw [firstLineBytes]
    split
    · exact ⟨_, rfl⟩
    · rename_i hn
      obtain ⟨q, hq⟩ := Option.isSome_iff_exists.1 (hst.resolve_left hn)
      rw [hq]; exact ⟨_, rfl⟩
  rw [Sip.bytes, hl, e1]
  exact ⟨_, rfl⟩

/-- C159: whatever an object has been used for before, once `Parse` has accepted a message it can be written (`Bytes` does not
panic), in whatever order the header map is visited. -/
theorem C159_received (s : Sip) (hs : Used U s) (r : Rd) (h : (parse U s r).1 = .ok ()) (order : Hdr → Hdr) :
    ∃ w, ((parse U s r).2.1.bytes U order).1 = .ok w := by
  obtain ⟨h1, h2⟩ := sane_parse U s r (used_sane U hs)
  exact sane_writes U order _ h1 (h2 h)

/-- A response received by an object that holds a rejected request. -/
example : (parseBytes plainU (parseBytes plainU Sip.new (text "BYE sip:a@b SIP/2.0\r\nl: x\r\n\r\n")).2 (text "SIP/2.0 200 OK\r\nContent-Length: 0\r\n\r\n")).1 = .ok () ∧
    (parseBytes plainU Sip.new (text "BYE sip:a@b SIP/2.0\r\nl: x\r\n\r\n")).1 = .err .other := by decide +kernel

/-- C159: every object that is a request with a URI or a response can be written, and remains so whatever is done with it. -/
theorem C159_written (s : Sip) (hs : Used U s) (h : s.isResponse = true ∨ s.request ≠ none) (order : Hdr → Hdr) :
    ∃ w, (s.bytes U order).1 = .ok w :=
  sane_writes U order s (used_sane U hs) (h.imp id Option.isSome_iff_ne_none.2)

example : Used plainU (((makeRequest 3 (some someRequest) none []).setBody [1]).bytes plainU id).2 ∧
    (((makeRequest 3 (some someRequest) none []).setBody [1]).bytes plainU id).2.request ≠ none :=
  ⟨.bytes _ (.body _ (.request _ _ _ _)), by decide +kernel⟩

/-- C159: an object that is neither is one that `NewSIP` has made and `Parse` has not yet filled: it has no
headers, so `Parse` accepts nothing that has no start line. -/
theorem C159_neither (s : Sip) (hs : Used U s) (h : s.isResponse = false) (h' : s.request = none) : s.headers = some [] := by
  obtain ⟨hd, h1, h2⟩ := used_sane U hs
  rcases h2 with rfl | h2 | h2
  · exact h1
  · rw [h] at h2; simp at h2
  · rw [h'] at h2; simp at h2

example : Used plainU (parseBytes plainU Sip.new (text "\r\n")).2 ∧ (parseBytes plainU Sip.new (text "\r\n")).2.request = none :=
  ⟨.parse _ .new, by decide +kernel⟩

end
end Verif.Props
