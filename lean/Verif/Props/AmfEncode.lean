import Verif.Lemmas.AmfEncode
import Verif.Props.Amf0
import Verif.Props.Amf3
/-!
# Property C152: what the AMF encoders write

Which bytes stand for which value is specified in `Verif/Spec/AmfEncode.lean`.
-/
namespace Verif.Props
open Verif Verif.Amf Verif.Spec.Amf

/-! ## AMF3 -/

section
open Verif.Amf3 Verif.Spec.Amf3

/-- C152, AMF3 (partial): `Encode` accepts the value, writes bytes that are, by the specification, one value that stands for it,
and counts them.  Missing: integers from 2^28 to 536870910 of the kinds with at most 32 bits (`C152_amf3_integers_refuted`) and
negative ones (C32). -/
theorem C152_amf3_partial (v : Val) (hv : Sendable v) :
    (Amf3.encode v Sink.mem).1 = .ok (amf3Bytes v).length ∧ Denotes v (amf3Bytes v) := by
  obtain ⟨cs, h1, h2⟩ := sends v hv
  unfold amf3Bytes
  rw [show (Amf3.encode v Sink.mem).2.out = cs.flatten from h1.mem.2]
  exact ⟨h1.mem.1, h2⟩

/-- {"b": [date, -5 as int64, 70000 as int], "a": typed "T" {"k": bytes}} -/
example : Denotes (.obj [([98], .arr [.time 1700000000, .int true (-5), .int false 70000]), ([97], .typed [84] [([107], .bytes [])])])
    (amf3Bytes (.obj [([98], .arr [.time 1700000000, .int true (-5), .int false 70000]), ([97], .typed [84] [([107], .bytes [])])])) :=
  (C152_amf3_partial _ (by simp [Sendable, SendableF, SendableL])).2

/-- The same for a batch: exactly the values, in order. -/
theorem C152_amf3_batch_partial (vs : List Val) (hv : ∀ v ∈ vs, Sendable v) :
    (Amf3.encodeBatch vs Sink.mem).1 = .ok () ∧ DenotesL vs (amf3Batch vs) := by
  have h : ∃ cs : List Bytes, Emits (Amf3.encodeBatch vs) cs (.ok ()) ∧ DenotesL vs cs.flatten := by
    induction vs with
    | nil => exact ⟨_, Emits.pure (), .nil⟩
    | cons v vs ih =>
      obtain ⟨cs, h1, h2⟩ := sends v (hv v (by simp))
      obtain ⟨ds, h3, h4⟩ := ih fun w hw => hv w (by simp [hw])
      exact ⟨_, h1.bind h3, by rw [List.flatten_append]; exact .cons h2 h4⟩
  obtain ⟨cs, h1, h2⟩ := h
  unfold amf3Batch
  rw [h1.mem.2]
  exact ⟨h1.mem.1, h2⟩

example : DenotesL [.nil, .str [97]] (amf3Batch [.nil, .str [97]]) :=
  (C152_amf3_batch_partial [.nil, .str [97]] (by simp [Sendable])).2

theorem isU29_unique' {b n m} (h : IsU29 b n) (h' : IsU29 b m) : n = m := by
  cases h <;> cases h' <;> rfl

/-- C152 fails for every integer from 2^28 to 536870910 of a kind with at most 32 bits: `Encode` accepts it and writes an AMF3
integer that stands for another, negative, number. -/
theorem C152_amf3_integers_refuted (n : Nat) (h : 268435456 ≤ n ∧ n < 536870911) (v : Val) (hv : v = .uint false n ∨ v = .int false n) :
    (∃ k, (Amf3.encode v Sink.mem).1 = .ok k) ∧ ¬ Denotes v (amf3Bytes v) ∧ Denotes (.int false ((n : Int) - 2 ^ 29)) (amf3Bytes v) := by
  have he : Encodable v := by rcases hv with rfl | rfl <;> simp only [Encodable]; omega
  have hw : wire v = 4 :: u29 n := by
    rcases hv with rfl | rfl
    · rw [wire, if_pos (by omega)]
    · rw [wire, if_pos (by omega)]; rfl
  obtain ⟨cs, _, h2⟩ := emits_wire v he
  have hu := isU29_u29 n (by omega)
  refine ⟨⟨_, h2.mem.1⟩, ?_, ?_⟩
  · rw [amf3Bytes_wire v he, hw]
    intro hd
    have hn : Number n (4 :: u29 n) := by
      rcases hv with rfl | rfl
      · cases hd with | uint h => exact h
      · cases hd with | int h => exact h
    cases hn with
    | int h1 h3 =>
      have := isU29_unique' hu h1
      subst this
      unfold signed at h3
      rw [if_neg (by omega)] at h3
      omega
  · rw [amf3Bytes_wire v he, hw]
    exact .int (.int hu (by unfold signed; rw [if_neg (by omega)]))

/-- 2^28 is written as an integer that stands for -2^28. -/
example : ¬ Denotes (.int false 268435456) (amf3Bytes (.int false 268435456)) :=
  (C152_amf3_integers_refuted 268435456 (by omega) _ (.inr rfl)).2.1

end

/-! ## AMF0 -/

section
open Verif.Amf0 Verif.Spec.Amf0

/-- C152, AMF0 (partial): as above.  Missing: dates (`C152_amf0_dates_refuted`), empty member names
(`C152_amf0_empty_name_refuted`) and names of 65536 bytes or more (`C152_amf0_long_name_refuted`). -/
theorem C152_amf0_partial (v : Val) (hv : Encodable v) (h6 : Fits64 v) :
    (Amf0.encode v Sink.mem).1 = .ok (amf0Bytes v).length ∧ Denotes0 v (amf0Bytes v) := by
  obtain ⟨cs, h1, h2⟩ := emits_wire v hv
  rw [amf0Bytes_wire v hv]
  exact ⟨h2.mem.1, denotes_wire v hv h6⟩

example : Denotes0 (.obj [([97], .arr [.int false (-1), .bytes [255]]), ([98], .typed [84] [([107], .str [])])])
    (amf0Bytes (.obj [([97], .arr [.int false (-1), .bytes [255]]), ([98], .typed [84] [([107], .str [])])])) :=
  (C152_amf0_partial _ (by simp [Encodable, EncodableF, EncodableL]) (by simp [Fits64, Fits64F, Fits64L])).2

theorem C152_amf0_batch_partial (vs : List Val) (hv : ∀ v ∈ vs, Encodable v ∧ Fits64 v) :
    (Amf0.encodeBatch vs Sink.mem).1 = .ok () ∧ DenotesL0 vs (amf0Batch vs) := by
  have he : ∀ v ∈ vs, Encodable v := fun v hw => (hv v hw).1
  obtain ⟨cs, h1, h2⟩ := Amf0.emits_batch vs he
  refine ⟨h2.mem.1, ?_⟩
  rw [amf0Batch_wire vs he]
  clear h1 h2 he
  induction vs with
  | nil => exact .nil
  | cons v vs ih => exact .cons (denotes_wire v (hv v (by simp)).1 (hv v (by simp)).2) (ih fun w hw => hv w (by simp [hw]))

example : DenotesL0 [.nil, .str [97]] (amf0Batch [.nil, .str [97]]) :=
  (C152_amf0_batch_partial [.nil, .str [97]] (by simp [Encodable, Fits64])).2

/-- C152 for the other encoders of AMF0: an ECMA array stands for its members, an XML document for its text, a reference for the
complex value with its number, undefined and unsupported for nil, and an AMF3 value for itself. -/
theorem C152_amf0_other_encoders (kvs : List (Bytes × Val)) (hk : EncodableF kvs) (h6 : Fits64F kvs) (hl : kvs.length < 2 ^ 32)
    (x : Bytes) (hx : x.length < 2 ^ 32) (ref : UInt16) (v : Val) (hv : Spec.Amf3.Sendable v) :
    Denotes0 (.obj kvs) (Amf0.encodeEcmaArray kvs Sink.mem).2.out ∧
    Denotes0 (.str x) (Amf0.encodeXmlDocument x Sink.mem).2.out ∧
    Denotes0 (.shared ref.toNat) (Amf0.encodeReference ref Sink.mem).2.out ∧
    Denotes0 .nil (Amf0.encodeUndefined Sink.mem).2.out ∧
    Denotes0 .nil (Amf0.encodeUnsupported Sink.mem).2.out ∧
    Denotes0 v (Amf0.encodeWithAMF3 v Sink.mem).2.out := by
  refine ⟨?_, ?_, ?_, .undefined, .unsupported, ?_⟩
  · obtain ⟨cs, h1, h2⟩ := emits_wireF kvs hk
    have hE : Emits (Amf0.encodeEcmaArray kvs) _ _ := (Emits.writeByte 8).bind ((Emits.write _).bind h2.map)
    rw [hE.mem.2]
    simpa [h1] using Denotes0.ecma (.refl kvs) hl (denotes_wireF kvs hk h6)
  · have h : (Amf0.encodeXmlDocument x Sink.mem).2.out = 15 :: utf8Long x := by
      have := (emits_longString x false).reliable { Sink.mem with out := [15], calls := 1 } (fun _ => rfl)
      simp only [Amf0.encodeXmlDocument, swallowMarker, writeByte, Sink.write, Sink.mem, GoM.bind_apply, List.nil_append] at this ⊢
      simp [this, utf8Long, GoM.pure_apply]
    rw [h]
    exact .xml hx
  · exact .ref ref
  · obtain ⟨cs, h1, h2⟩ := Amf3.sends v hv
    have h : (Amf0.encodeWithAMF3 v Sink.mem).2.out = 17 :: cs.flatten := by
      have := h1.reliable { Sink.mem with out := [17], calls := 1 } (fun _ => rfl)
      simp only [Amf0.encodeWithAMF3, Amf3.encode, swallowMarker, writeByte, Sink.write, Sink.mem, GoM.bind_apply, List.nil_append] at this ⊢
      simp [this, GoM.pure_apply]
    rw [h]
    exact .amf3 h2

example : Denotes0 (.obj [([97], .nil)]) (Amf0.encodeEcmaArray [([97], .nil)] Sink.mem).2.out :=
  (C152_amf0_other_encoders [([97], .nil)] (by simp [EncodableF, Encodable]) (by simp [Fits64F, Fits64]) (by decide) [60] (by decide) 7 .nil
    (by simp [Spec.Amf3.Sendable])).1

/-- C152 fails for every date: what is written is not a value of the specification, whichever it should stand for. -/
theorem C152_amf0_dates_refuted (sec : Int) :
    (Amf0.encode (.time sec) Sink.mem).1 = .ok 12 ∧ ¬ ∃ v, Denotes0 v (amf0Bytes (.time sec)) := by
  have h := emits_date sec
  refine ⟨h.mem.1, ?_⟩
  have hb : amf0Bytes (.time sec) = 11 :: (0 :: be64 (F64.mul1000 (F64.ofInt sec)) ++ [0, 0]) := by
    unfold amf0Bytes
    exact (show (Amf0.encode (.time sec) Sink.mem).2.out = _ from h.mem.2).trans (by simp)
  rw [hb]
  rintro ⟨v, hv⟩
  generalize hx : (11 :: (0 :: be64 (F64.mul1000 (F64.ofInt sec)) ++ [0, 0]) : Bytes) = x at hv
  cases hv with
  | date h =>
    have := congrArg List.length hx
    simp [be64_length] at this
  | _ => simp at hx

example : ¬ ∃ v, Denotes0 v (amf0Bytes (.time 1700000000)) := (C152_amf0_dates_refuted 1700000000).2

/-- C152 fails for every object with one member whose name is empty: `Encode` accepts it, and what is written is not a value of
the specification: the name looks like the end of the object. -/
theorem C152_amf0_empty_name_refuted (v : Val) (hv : Encodable v) :
    (∃ n, (Amf0.encode (.obj [([], v)]) Sink.mem).1 = .ok n) ∧ ¬ ∃ w, Denotes0 w (amf0Bytes (.obj [([], v)])) := by
  obtain ⟨cs, h1, h2⟩ := emits_wire v hv
  have hE : Emits (Amf0.encode (.obj [([], v)])) _ _ :=
    (emits_opt 3 true).bind (((emits_string [] false).bind (h2.bind
      (((emits_string [] false).bind ((Emits.writeByte 9).map)).map))).map)
  refine ⟨⟨_, hE.mem.1⟩, ?_⟩
  have hb : amf0Bytes (.obj [([], v)]) = 3 :: (0 :: 0 :: (wire v ++ [0, 0, 9])) := by
    unfold amf0Bytes
    rw [hE.mem.2]
    simp [h1, be16]
  rw [hb]
  rintro ⟨w, hw⟩
  generalize hx : (3 :: (0 :: 0 :: (wire v ++ [0, 0, 9])) : Bytes) = x at hw
  cases hw with
  | obj hp h =>
    replace hx := (List.cons.inj hx).2
    cases h with
    | nil =>
      have := congrArg List.length hx
      simp at this
    | @cons k _ _ _ _ hk hl _ _ =>
      have h3 : be16 (UInt16.ofNat k.length) = [0, 0] := by
        have := congrArg (List.take 2) hx
        simpa [utf8, be16] using this.symm
      have h4 : beNat (be16 (UInt16.ofNat k.length)) = k.length := beNat_be16 _ (by omega)
      rw [h3] at h4
      have : k.length = 0 := by simpa [beNat] using h4.symm
      exact hk (List.length_eq_zero_iff.1 this)
  | _ => simp at hx

example : ¬ ∃ w, Denotes0 w (amf0Bytes (.obj [([], .bool true)])) :=
  (C152_amf0_empty_name_refuted (.bool true) (by simp [Encodable])).2

/-- C152 fails for every object with one member whose name has 65536 bytes or more: `Encode` accepts it, although no bytes stand for
it in the format. -/
theorem C152_amf0_long_name_refuted (k : Bytes) (hk : 65536 ≤ k.length) (v : Val) (hv : Encodable v) :
    (∃ n, (Amf0.encode (.obj [(k, v)]) Sink.mem).1 = .ok n) ∧ ¬ Denotes0 (.obj [(k, v)]) (amf0Bytes (.obj [(k, v)])) := by
  obtain ⟨cs, h1, h2⟩ := emits_wire v hv
  have hE : Emits (Amf0.encode (.obj [(k, v)])) _ _ :=
    (emits_opt 3 true).bind (((emits_string k false).bind (h2.bind
      (((emits_string [] false).bind ((Emits.writeByte 9).map)).map))).map)
  refine ⟨⟨_, hE.mem.1⟩, ?_⟩
  have hb : ∃ r, amf0Bytes (.obj [(k, v)]) = 3 :: r := by
    unfold amf0Bytes
    rw [hE.mem.2]
    exact ⟨_, by simp; rfl⟩
  obtain ⟨r, hb⟩ := hb
  rw [hb]
  intro hw
  cases hw with
  | obj hp h =>
    obtain rfl := List.perm_singleton.1 hp
    cases h with
    | cons _ hl _ _ => omega

example : ∃ k : Bytes, 65536 ≤ k.length := ⟨List.replicate 65536 0, Nat.le_of_eq List.length_replicate.symm⟩

end
end Verif.Props
