import Verif.Props.Amf0Peer
import Verif.Props.Amf3
/-!
# Property C28 for data that is no command, and C125: the metadata header with the AMF3 decoder
-/
namespace Verif.Props
open Verif Verif.Amf Verif.Spec.Amf

theorem ran {α β} {p : α × β} {a : α} (h : p.1 = a) : p = (a, p.2) := Prod.ext h rfl

/-! ## C28 -/

/-- C28: data that does not begin with a string, or cannot be decoded, is refused by both functions and by whatever decoder,
with an error. -/
theorem C28_no_string (d : GoM St Val) (st : St) (p : Bytes) (r : Res Val) (s' : St)
    (h : d { st with data := p, eofOnEmpty := true, lim := id } = (r, s'))
    (hr : (∃ v, r = .ok v ∧ ∀ x, v ≠ .str x) ∨ ∃ e, r = .err e) :
    (∃ e, Amf0.addMetaHeader d st p = .err e) ∧ ∃ e, Amf0.delMetaHeader d st p = .err e := by
  simp only [Amf0.addMetaHeader, Amf0.delMetaHeader, h]
  rcases hr with ⟨v, rfl, hv⟩ | ⟨e, rfl⟩
  · cases v with
    | str x => exact absurd rfl (hv x)
    | _ => exact ⟨⟨_, rfl⟩, _, rfl⟩
  · exact ⟨⟨_, rfl⟩, _, rfl⟩

/-- The number 0, and a string that is cut off. -/
example : (∃ e, Amf0.addMetaHeader Amf0.decode (St.buffer []) [0, 0, 0, 0, 0, 0, 0, 0, 0] = .err e) ∧
    ∃ e, Amf0.delMetaHeader Amf0.decode (St.buffer []) [0, 0, 0, 0, 0, 0, 0, 0, 0] = .err e :=
  C28_no_string Amf0.decode _ _ (.ok (.f64 0))
    (Amf0.decode { St.buffer [] with data := [0, 0, 0, 0, 0, 0, 0, 0, 0], eofOnEmpty := true, lim := id }).2
    (Prod.ext (by decide +kernel) rfl) (.inl ⟨_, rfl, by simp⟩)
example : (∃ e, Amf0.addMetaHeader Amf0.decode (St.buffer []) [2, 0, 3, 97] = .err e) ∧
    ∃ e, Amf0.delMetaHeader Amf0.decode (St.buffer []) [2, 0, 3, 97] = .err e :=
  C28_no_string Amf0.decode _ _ (.err .other) (Amf0.decode { St.buffer [] with data := [2, 0, 3, 97], eofOnEmpty := true, lim := id }).2
    (Prod.ext (by decide +kernel) rfl) (.inr ⟨_, rfl⟩)

/-- C28: what the decoder reports is reported unchanged, also that it panicked, and data that begins with something else than a
string is not taken for the end of the input. -/
theorem C28_outcome (d : GoM St Val) (st : St) (p : Bytes) :
    (∀ e s', d { st with data := p, eofOnEmpty := true, lim := id } = (.err e, s') →
      Amf0.addMetaHeader d st p = .err e ∧ Amf0.delMetaHeader d st p = .err e) ∧
    (∀ s', d { st with data := p, eofOnEmpty := true, lim := id } = (.panic, s') →
      Amf0.addMetaHeader d st p = .panic ∧ Amf0.delMetaHeader d st p = .panic) ∧
    (∀ v s', d { st with data := p, eofOnEmpty := true, lim := id } = (.ok v, s') → (∀ x, v ≠ .str x) →
      Amf0.addMetaHeader d st p ≠ .err .eof ∧ Amf0.delMetaHeader d st p ≠ .err .eof) := by
  refine ⟨fun e s' h => ?_, fun s' h => ?_, fun v s' h hv => ?_⟩ <;> simp only [Amf0.addMetaHeader, Amf0.delMetaHeader, h]
  · simp
  · simp
  · cases v with
    | str x => exact absurd rfl (hv x)
    | _ => simp

/-- Nothing at all, a reference into an empty table, and null. -/
example : Amf0.addMetaHeader Amf0.decode (St.buffer []) [] = .err .eof ∧ Amf0.delMetaHeader Amf0.decode (St.buffer []) [] = .err .eof :=
  (C28_outcome Amf0.decode (St.buffer []) []).1 .eof _ (ran (by decide +kernel))
example : Amf0.addMetaHeader Amf0.decode (St.buffer []) [7, 0, 0] = .panic ∧ Amf0.delMetaHeader Amf0.decode (St.buffer []) [7, 0, 0] = .panic :=
  (C28_outcome Amf0.decode (St.buffer []) [7, 0, 0]).2.1 _ (ran (by decide +kernel))
example : Amf0.addMetaHeader Amf0.decode (St.buffer []) [5] ≠ .err .eof ∧ Amf0.delMetaHeader Amf0.decode (St.buffer []) [5] ≠ .err .eof :=
  (C28_outcome Amf0.decode (St.buffer []) [5]).2.2 .nil _ (ran (by decide +kernel)) (by simp)

/-! ## C125 -/

/-- C125 fails: the header is added to AMF3 data as an AMF0 string, which the AMF3 decoder takes for the value false; so
`DelMetaHeader` refuses whatever `AddMetaHeader` made. -/
theorem C125_amf3_del_add_refuted (H : Amf3.Handlers) (st st' : St) (p x : Bytes) (s' : St) (hx : x ≠ setDataFrameChars)
    (h : Amf3.decode H { st with data := p, eofOnEmpty := true, lim := id } = (.ok (.str x), s')) :
    Amf0.addMetaHeader (Amf3.decode H) st p = .ok (metaHeader ++ p) ∧
    ∃ e, Amf0.delMetaHeader (Amf3.decode H) st' (metaHeader ++ p) = .err e := by
  constructor
  · simp only [Amf0.addMetaHeader, h, chars_eq, metaHeader_eq, ne_eq, hx, not_false_eq_true, if_true]
  · obtain ⟨-, w, s', h1, -, h2⟩ := C30_amf3_round_trip H (.bool false) (by simp [Spec.Amf3.Encodable])
      { st' with data := metaHeader ++ p, eofOnEmpty := true, lim := id } (metaHeader.drop 1 ++ p) (fun _ => Nat.le_refl _)
      (by rw [show amf3Bytes (.bool false) = [2] by decide +kernel]; rfl)
    refine (C28_no_string (Amf3.decode H) st' (metaHeader ++ p) _ s' h1 (.inl ⟨w, rfl, ?_⟩)).2
    rintro y rfl
    simp [Spec.Amf3.Same] at h2

/-- "onMetaData" and the object {}. -/
def sampleMeta3 : Bytes := [6, 21, 111, 110, 77, 101, 116, 97, 68, 97, 116, 97, 10, 3, 1]

example : Amf0.addMetaHeader (Amf3.decode fun _ => none) (St.buffer []) sampleMeta3 = .ok (metaHeader ++ sampleMeta3) ∧
    ∃ e, Amf0.delMetaHeader (Amf3.decode fun _ => none) (St.buffer []) (metaHeader ++ sampleMeta3) = .err e :=
  C125_amf3_del_add_refuted (fun _ => none) (St.buffer []) (St.buffer []) sampleMeta3 [111, 110, 77, 101, 116, 97, 68, 97, 116, 97]
    (Amf3.decode (fun _ => none) { St.buffer [] with data := sampleMeta3, eofOnEmpty := true, lim := id }).2 (by decide +kernel)
    (Prod.ext (by decide +kernel) rfl)

/-- The AMF3 string "@setDataFrame" (marker, length 13, characters). -/
def metaHeader3 : Bytes := [6, 27, 64, 115, 101, 116, 68, 97, 116, 97, 70, 114, 97, 109, 101]

/-- C125 fails: from data that begins with the header in AMF3, `DelMetaHeader` takes one byte too many, and panics if nothing
follows. -/
theorem C125_amf3_del_refuted (H : Amf3.Handlers) (st : St) (b : UInt8) (q : Bytes) :
    Amf0.delMetaHeader (Amf3.decode H) st (metaHeader3 ++ b :: q) = .ok q ∧
    Amf0.delMetaHeader (Amf3.decode H) st metaHeader3 = .panic := by
  have key : ∀ q, ∃ s', Amf3.decode H { st with data := metaHeader3 ++ q, eofOnEmpty := true, lim := id } = (.ok (.str Amf0.setDataFrame), s') := by
    intro q
    have hb : amf3Bytes (.str Amf0.setDataFrame) = metaHeader3 := by decide +kernel
    obtain ⟨-, w, s', h1, -, h2⟩ := C30_amf3_round_trip H (.str Amf0.setDataFrame) (by simp [Spec.Amf3.Encodable, Amf0.setDataFrame])
      { st with data := metaHeader3 ++ q, eofOnEmpty := true, lim := id } q (fun _ => Nat.le_refl _) (by rw [hb])
    refine ⟨s', ?_⟩
    rw [h1]
    cases w <;> simp [Spec.Amf3.Same] at h2
    rw [h2]
  constructor
  · obtain ⟨s', h⟩ := key (b :: q)
    simp only [Amf0.delMetaHeader, h, if_true, metaHeader_eq]
    have hl : (metaHeader.length : Int) = 16 := rfl
    rw [goSlice, if_pos (by simp [hl, metaHeader3]; omega), hl]
    rw [Int.toNat_natCast, List.take_length]
    rfl
  · obtain ⟨s', h⟩ := key []
    rw [List.append_nil] at h
    simp only [Amf0.delMetaHeader, h, if_true, metaHeader_eq]
    rfl

example : Amf0.delMetaHeader (Amf3.decode fun _ => none) (St.buffer []) (metaHeader3 ++ sampleMeta3) = .ok (sampleMeta3.drop 1) :=
  (C125_amf3_del_refuted (fun _ => none) (St.buffer []) 6 (sampleMeta3.drop 1)).1

end Verif.Props
