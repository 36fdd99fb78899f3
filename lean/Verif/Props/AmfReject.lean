import Verif.Lemmas.AmfReject
import Verif.Props.Amf0
import Verif.Props.Amf3Peer
/-!
# Property C155: a value that `Encode` rejects leaves nothing on the connection

Which values are documented is in `Verif/Spec/AmfReject.lean`.
-/
namespace Verif.Props
open Verif Verif.Amf Verif.Spec.Amf

/-- C155, AMF0: with a writer that works, `Encode` accepts exactly the values that consist of documented kinds throughout, and
returns an error for every other value. -/
theorem C155_amf0_accepts (v : Val) (hv : Tree v) (w : Sink) (hw : w.Reliable) :
    ((∃ n, (Amf0.encode v w).1 = .ok n) ↔ Supported false v) ∧ (¬ Supported false v → ∃ e, (Amf0.encode v w).1 = .err e) :=
  (Amf0.dec_enc v hv).run w hw

/-- C155, AMF3 (partial): the same for values within the limits of the format, but with the exception of the integers from -536870911
to -1 of the kinds with at most 32 bits, which are rejected.  Missing: these (`C155_amf3_integer_refuted`, C32). -/
theorem C155_amf3_accepts_partial (v : Val) (hv : Tree v) (hs : Short v) (w : Sink) (hw : w.Reliable) :
    ((∃ n, (Amf3.encode v w).1 = .ok n) ↔ Supported true v) ∧ (¬ Supported true v → ∃ e, (Amf3.encode v w).1 = .err e) :=
  (Amf3.dec_enc v hv hs).run w hw

/-- Values of kinds that are not documented. -/
def undocumented : Val → Prop
  | .other | .ecma _ _ => True
  | _ => False

/-- C155 (partial): a value that is itself of another kind is rejected without a trace, whatever the writer does.  In a batch, what
comes before it has been sent as if it were not there.  Missing: values with something undocumented inside
(`C155_amf0_refuted`, `C155_amf3_refuted`). -/
theorem C155_kind_partial (v : Val) (hv : undocumented v) (w : Sink) :
    Amf0.encode v w = (.err .other, w) ∧ Amf3.encode v w = (.err .other, w) ∧
    (∀ vs us, (Amf0.encodeBatch vs w).1 = .ok () → Amf0.encodeBatch (vs ++ v :: us) w = (.err .other, (Amf0.encodeBatch vs w).2)) ∧
    (∀ vs us, (Amf3.encodeBatch vs w).1 = .ok () → Amf3.encodeBatch (vs ++ v :: us) w = (.err .other, (Amf3.encodeBatch vs w).2)) := by
  have h0 : ∀ w, Amf0.encode v w = (.err .other, w) := by
    intro w
    cases v <;> first | exact hv.elim | rfl
  have h3 : ∀ w, Amf3.encode v w = (.err .other, w) := by
    intro w
    cases v <;> first | exact hv.elim | rfl
  refine ⟨h0 w, h3 w, fun vs us h => ?_, fun vs us h => ?_⟩
  · induction vs generalizing w with
    | nil => simp [Amf0.encodeBatch, GoM.bind_apply, h0]
    | cons x xs ih =>
      simp only [List.cons_append, Amf0.encodeBatch, GoM.bind_apply] at h ⊢
      rcases hx : Amf0.encode x w with ⟨r, w'⟩
      rw [hx] at h
      cases r with
      | ok n => exact ih w' h
      | _ => simp at h
  · induction vs generalizing w with
    | nil => simp [Amf3.encodeBatch, GoM.bind_apply, h3]
    | cons x xs ih =>
      simp only [List.cons_append, Amf3.encodeBatch, GoM.bind_apply] at h ⊢
      rcases hx : Amf3.encode x w with ⟨r, w'⟩
      rw [hx] at h
      cases r with
      | ok n => exact ih w' h
      | _ => simp at h

/-- C155 fails for every array, object and typed object with something undocumented at any depth: AMF0 `Encode` returns an error
after it has begun to write. -/
theorem C155_amf0_refuted (v : Val) (hv : Tree v) (hc : Compound v) (hn : ¬ Supported false v) (w : Sink) (hw : w.Reliable) :
    (∃ e, (Amf0.encode v w).1 = .err e) ∧ ∃ b c, (Amf0.encode v w).2.out = w.out ++ b :: c := by
  refine ⟨(C155_amf0_accepts v hv w hw).2 hn, ?_⟩
  cases v with
  | arr xs => exact ⟨_, (Amf0.dec_arr xs hv).out w hw⟩
  | obj kvs => exact ⟨_, (Amf0.dec_obj kvs hv).out w hw⟩
  | typed t kvs => exact ⟨_, (Amf0.dec_typed t kvs hv).out w hw⟩
  | _ => exact hc.elim

/-- The same for AMF3. -/
theorem C155_amf3_refuted (v : Val) (hv : Tree v) (hs : Short v) (hc : Compound v) (hn : ¬ Supported true v) (w : Sink) (hw : w.Reliable) :
    (∃ e, (Amf3.encode v w).1 = .err e) ∧ ∃ b c, (Amf3.encode v w).2.out = w.out ++ b :: c := by
  refine ⟨(C155_amf3_accepts_partial v hv hs w hw).2 hn, ?_⟩
  cases v with
  | arr xs => exact ⟨_, (Amf3.dec_arr xs hv hs).out w hw⟩
  | obj kvs => exact ⟨_, (Amf3.dec_obj kvs hv hs).out w hw⟩
  | typed t kvs => exact ⟨_, (Amf3.dec_typed t kvs hv hs).out w hw⟩
  | _ => exact hc.elim

section
open Verif.Amf3 Verif.Spec.Amf3

theorem wire_first (v : Val) (h : Encodable v) : ∃ n : Nat, ∃ c, n < 16 ∧ wire v = UInt8.ofNat n :: c := by
  cases v with
  | nil => exact ⟨1, _, by decide, rfl⟩
  | bool b => cases b
              · exact ⟨2, _, by decide, rfl⟩
              · exact ⟨3, _, by decide, rfl⟩
  | f64 f => exact ⟨5, _, by decide, by rw [wire]; rfl⟩
  | int b i =>
    cases b
    · rw [wire]
      split
      · exact ⟨4, _, by decide, rfl⟩
      · exact ⟨5, _, by decide, rfl⟩
    · exact ⟨5, _, by decide, by rw [wire]; rfl⟩
  | uint b i =>
    cases b
    · rw [wire]
      split
      · exact ⟨4, _, by decide, rfl⟩
      · exact ⟨5, _, by decide, rfl⟩
    · exact ⟨5, _, by decide, by rw [wire]; rfl⟩
  | str s => exact ⟨6, _, by decide, by rw [wire]; rfl⟩
  | arr xs => exact ⟨9, _, by decide, by rw [wire]; rfl⟩
  | bytes b => exact ⟨12, _, by decide, by rw [wire]; rfl⟩
  | obj kvs => exact ⟨10, _, by decide, by rw [wire]; rfl⟩
  | typed t kvs => exact ⟨10, _, by decide, by rw [wire]; rfl⟩
  | time sec => exact ⟨8, _, by decide, by rw [wire]; rfl⟩
  | ecma _ _ => simp [Encodable] at h
  | shared _ => simp [Encodable] at h
  | other => simp [Encodable] at h

/-- C155 fails in AMF3 for every integer from -536870911 to -1 of a kind with at most 32 bits: it is rejected, but one byte has been
written.  Whatever value is sent next, a receiver takes its first byte for an integer, and what follows for the next message. -/
theorem C155_amf3_integer_refuted (i : Int) (hi : -536870911 ≤ i ∧ i ≤ -1) :
    (∀ w : Sink, w.Reliable → (Amf3.encode (.int false i) w).1 = .err .other ∧ (Amf3.encode (.int false i) w).2.out = w.out ++ [4]) ∧
    ∀ v, Encodable v → ∃ n c, amf3Bytes v = UInt8.ofNat n :: c ∧
      ∀ (H : Handlers) (s : St), s.Contig → s.data = amf3Bytes (.int false i) ++ amf3Bytes v →
        ∃ s', Amf3.decode H s = (.ok (.uint false n), s') ∧ s'.data = c := by
  have he : Emits (Amf3.encode (.int false i)) [[4]] (.err .other) := by
    show Emits (enc (.int false i)) _ _
    unfold enc
    rw [if_pos (by omega)]
    have hl : ¬ (UInt32.ofNat (i % 2 ^ 32).toNat).toNat < 2 ^ 29 := by
      rw [UInt32.toNat_ofNat']; omega
    unfold encodeInteger
    rw [writeUint29_large _ hl]
    exact (Emits.writeByte 4).bind (Emits.bind_err (Emits.fail .other))
  have hb : amf3Bytes (.int false i) = [4] := by rw [amf3Bytes]; exact he.mem.2
  refine ⟨fun w hw => ?_, fun v hv => ?_⟩
  · rw [he.reliable w hw]
    exact ⟨rfl, rfl⟩
  · obtain ⟨n, c, hn, hc⟩ := wire_first v hv
    refine ⟨n, c, by rw [amf3Bytes_wire v hv, hc], fun H s hs hd => ?_⟩
    have hu : u29 n = [UInt8.ofNat n] := by
      unfold u29
      rw [if_pos (by omega)]
    obtain ⟨-, -, -, s', h1, h2⟩ := C97_amf3_integer_meaning_partial H n (by omega) s c hs
      (by rw [hd, hb, amf3Bytes_wire v hv, hc, hu]; rfl)
    exact ⟨s', h1, h2⟩

/-- An integer and two messages. -/
example : (Amf3.encode (.int false (-1)) Sink.mem).2.out = [4] ∧ Encodable (.str [0x61]) ∧ amf3Bytes (.str [0x61]) = [6, 3, 0x61] :=
  ⟨by decide +kernel, by simp [Encodable], by decide +kernel⟩
end

section
open Verif.Amf0 Verif.Spec.Amf0

theorem emits_stop (ys : List Val) (h : EncodableL ys) :
    ∃ cs, cs.flatten = wireL ys ∧ Emits (encL (ys ++ [.other])) cs (.err .other) := by
  induction ys with
  | nil => exact ⟨[], rfl, Emits.bind_err (Emits.fail .other)⟩
  | cons v vs ih =>
    obtain ⟨cs, h1, hc⟩ := emits_wire v h.1
    obtain ⟨ds, h2, hd⟩ := ih h.2
    exact ⟨cs ++ ds, by simp [wireL, h1, h2], hc.bind hd.bind_err⟩

theorem wireL_snoc (ys : List Val) (v : Val) : wireL (ys ++ [v]) = wireL ys ++ wire v := by
  induction ys with
  | nil => simp [wireL]
  | cons x xs ih => simp [wireL, ih]

theorem encodableL_snoc (ys : List Val) (v : Val) (h : EncodableL ys) (hv : Encodable v) : EncodableL (ys ++ [v]) := by
  induction ys with
  | nil => exact ⟨hv, trivial⟩
  | cons x xs ih => exact ⟨h.1, ih h.2⟩

theorem numbersL_snoc (ys : List Val) (v : Val) : numbersL (ys ++ [v]) = numbersL ys ++ [numbers v] := by
  induction ys with
  | nil => rfl
  | cons x xs ih => simp [numbersL, ih]

/-- C155 fails in AMF0 for every array whose last element is undocumented: it is rejected, and whatever value is sent next, a
receiver gets it as the last element of the rejected array. -/
theorem C155_amf0_next_refuted (ys : List Val) (hy : EncodableL ys) (hl : ys.length + 1 < 2 ^ 32) (v : Val) (hv : Encodable v) :
    (Amf0.encode (.arr (ys ++ [.other])) Sink.mem).1 = .err .other ∧
    ∃ s', Amf0.decode (St.buffer (amf0Bytes (.arr (ys ++ [.other])) ++ amf0Bytes v)) = (.ok (.arr (numbersL ys ++ [numbers v])), s') ∧
      s'.data = [] := by
  obtain ⟨cs, h1, h2⟩ := emits_stop ys hy
  have he : Emits (Amf0.encode (.arr (ys ++ [.other]))) ([[10]] ++ ([be32 (UInt32.ofNat (ys ++ [Val.other]).length)] ++ cs)) (.err .other) :=
    (Emits.writeByte 10).bind ((Emits.write _).bind h2.bind_err)
  refine ⟨he.mem.1, ?_⟩
  have hb : amf0Bytes (.arr (ys ++ [.other])) = 10 :: (be32 (UInt32.ofNat (ys.length + 1)) ++ wireL ys) := by
    have := he.mem.2
    simp only [List.flatten_append, List.length_append, List.length_singleton, h1] at this
    rw [amf0Bytes]
    simpa using this
  have ha : Encodable (.arr (ys ++ [v])) := ⟨by simpa using hl, encodableL_snoc ys v hy hv⟩
  obtain ⟨s', d1, d2⟩ := C17_amf0_round_trip_numbers (.arr (ys ++ [v])) ha (St.buffer (amf0Bytes (.arr (ys ++ [.other])) ++ amf0Bytes v)) []
    (fun _ => Nat.le_refl _)
    (by
      rw [amf0Bytes_wire _ ha, hb, amf0Bytes_wire v hv]
      simp [St.buffer, wire, wireL_snoc])
    (by simp [St.buffer])
  refine ⟨s', ?_, d2⟩
  rw [d1]
  simp [numbers, numbersL_snoc]

/-- A rejected array and the command after it. -/
example : EncodableL [.bool true] ∧ Encodable (.str [0x61]) ∧ amf0Bytes (.arr [.bool true, .other]) = [10, 0, 0, 0, 2, 1, 1] :=
  ⟨⟨trivial, trivial⟩, by simp [Encodable], by decide +kernel⟩
end

/-- Something undocumented two levels down, and a value of documented kinds only. -/
example : Tree (.obj [([0x61], .arr [.nil, .other])]) ∧ Short (.obj [([0x61], .arr [.nil, .other])]) ∧
    Compound (.obj [([0x61], .arr [.nil, .other])]) ∧ ¬ Supported false (.obj [([0x61], .arr [.nil, .other])]) ∧
    ¬ Supported true (.obj [([0x61], .arr [.nil, .other])]) ∧ Supported true (.obj [([0x61], .arr [.nil, .time 7])]) ∧
    undocumented .other := by
  simp [Tree, TreeF, TreeL, Short, ShortF, ShortL, Compound, Supported, SupportedF, SupportedL, undocumented]

end Verif.Props
