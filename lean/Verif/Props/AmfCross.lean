import Verif.Lemmas.AmfCross
import Verif.Props.AmfShared
import Verif.Props.AmfEncode
/-!
# Property C154: values can change the protocol

What is decoded from one of the two protocols is sent on in the other.  `Stands` and `ShortNames` are in `Verif/Spec/AmfShared.lean`,
`Denotes` and `Denotes0` (what bytes stand for by the specifications) in `Verif/Spec/AmfEncode.lean`.
-/
namespace Verif.Props
open Verif Verif.Amf Verif.Spec.Amf

/-- C154, from AMF0 to AMF3 (partial): a value that any `Decode` call returns, if it is finite and within the sizes of AMF3, can be
encoded as AMF3, by every sufficiently deep recursion, and the bytes stand for that value by the AMF3 specification.  The same within
AMF0 by `EncodeWithAMF3`.  Missing: values that contain themselves (`C154_infinite_refuted`); of the values that come
from embedded AMF3 (marker 17), those that AMF0 itself does not have: for arrays it fails, see `C154_embedded_array_refuted`. -/
theorem C154_amf0_to_amf3_partial (data : Bytes) (s s' : St) (_hs : AfterDecodes data s) (v w : Val)
    (_h : Amf0.decode s = (.ok v, s')) (hw : Stands (Amf0.heapOf s'.refs0) v w) (hz : Spec.Amf3.Sendable w) :
    ∃ depth out, Spec.Amf3.Denotes w out ∧ Spec.Amf0.Denotes0 w (17 :: out) ∧ ∀ d, depth ≤ d →
      (Amf3.encodeShared s'.refs0 d v Sink.mem).1 = .ok out.length ∧ (Amf3.encodeShared s'.refs0 d v Sink.mem).2.out = out ∧
      (Amf0.encodeSharedWithAMF3 s'.refs0 d v Sink.mem).1 = .ok (out.length + 1) ∧
      (Amf0.encodeSharedWithAMF3 s'.refs0 d v Sink.mem).2.out = 17 :: out := by
  obtain ⟨f0, hf⟩ := Amf3.shared_enc3 hw
  obtain ⟨cs, h1, h2⟩ := Amf3.sends w hz
  refine ⟨f0, cs.flatten, h2, .amf3 h2, fun d hd => ?_⟩
  have h3 := h1.mem
  have h4 := h1.reliable { Sink.mem with out := [17], calls := 1 } (fun _ => rfl)
  simp only [Amf3.encode] at h3 h4
  refine ⟨by rw [hf d hd]; exact h3.1, by rw [hf d hd]; exact h3.2, ?_, ?_⟩
  · simp only [Amf0.encodeSharedWithAMF3, hf d hd, Amf0.swallowMarker, writeByte, Sink.write, Sink.mem, GoM.bind_apply, List.nil_append] at h4 ⊢
    simp [h4, GoM.pure_apply]
  · simp only [Amf0.encodeSharedWithAMF3, hf d hd, Amf0.swallowMarker, writeByte, Sink.write, Sink.mem, GoM.bind_apply, List.nil_append] at h4 ⊢
    simp [h4, GoM.pure_apply]

/-- An array with an object and a reference to it. -/
example : ∃ depth out, Spec.Amf3.Denotes (.arr [.obj [([97], .nil)], .obj [([97], .nil)]]) out ∧
    Spec.Amf0.Denotes0 (.arr [.obj [([97], .nil)], .obj [([97], .nil)]]) (17 :: out) ∧ ∀ d, depth ≤ d →
    (Amf3.encodeShared (Amf0.decode (fresh [10, 0, 0, 0, 2, 3, 0, 1, 97, 5, 0, 0, 9, 7, 0, 1] false id)).2.refs0 d (.arr [.obj [([97], .nil)], .shared 1]) Sink.mem).1 = .ok out.length ∧
    (Amf3.encodeShared (Amf0.decode (fresh [10, 0, 0, 0, 2, 3, 0, 1, 97, 5, 0, 0, 9, 7, 0, 1] false id)).2.refs0 d (.arr [.obj [([97], .nil)], .shared 1]) Sink.mem).2.out = out ∧
    (Amf0.encodeSharedWithAMF3 (Amf0.decode (fresh [10, 0, 0, 0, 2, 3, 0, 1, 97, 5, 0, 0, 9, 7, 0, 1] false id)).2.refs0 d (.arr [.obj [([97], .nil)], .shared 1]) Sink.mem).1 = .ok (out.length + 1) ∧
    (Amf0.encodeSharedWithAMF3 (Amf0.decode (fresh [10, 0, 0, 0, 2, 3, 0, 1, 97, 5, 0, 0, 9, 7, 0, 1] false id)).2.refs0 d (.arr [.obj [([97], .nil)], .shared 1]) Sink.mem).2.out = 17 :: out :=
  C154_amf0_to_amf3_partial [10, 0, 0, 0, 2, 3, 0, 1, 97, 5, 0, 0, 9, 7, 0, 1] (fresh [10, 0, 0, 0, 2, 3, 0, 1, 97, 5, 0, 0, 9, 7, 0, 1] false id) _
    (.fresh false id) (.arr [.obj [([97], .nil)], .shared 1]) (.arr [.obj [([97], .nil)], .obj [([97], .nil)]]) (ran (by decide +kernel))
    (.arr (.cons (.obj (.cons .nil .nil)) (.cons (.shared (l := [([97], .nil)]) (by decide +kernel) (.cons .nil .nil)) .nil)))
    (by simp [Spec.Amf3.Sendable, Spec.Amf3.SendableL, Spec.Amf3.SendableF])

/-- C154 fails for the values that are not finite: whatever the depth of the recursion and the writer, encoding such a value as AMF3
does not succeed.  (`EncodeWithAMF3` reports success if the writer fails at once, see C108, hence the writer that does not.) -/
theorem C154_infinite_refuted (data : Bytes) (h17 : (17 : UInt8) ∉ data) (s s' : St) (hs : AfterDecodes data s) (v : Val)
    (h : Amf0.decode s = (.ok v, s')) (hw : ¬ ∃ w, Stands (Amf0.heapOf s'.refs0) v w) (d n : Nat) :
    (∀ k, (Amf3.encodeShared s'.refs0 d v k).1 ≠ .ok n) ∧ (Amf0.encodeSharedWithAMF3 s'.refs0 d v Sink.mem).1 ≠ .ok n := by
  obtain ⟨i, _, g⟩ := Amf0.k_decode s v s' (inv_after h17 hs) h
  have hno : ∀ k n, (Amf3.encodeShared s'.refs0 d v k).1 ≠ .ok n := fun k n hk =>
    hw (Amf3.ends i.refs d v g ⟨k, n, _, Prod.ext hk rfl⟩)
  refine ⟨fun k => hno k n, fun hk => ?_⟩
  have hk' : ((do let n ← Amf3.encodeShared s'.refs0 d v; pure (n + 1)) { Sink.mem with out := [17], calls := 1 }).1 = .ok n := hk
  obtain ⟨a, s1, h1, _⟩ := Amf3.sbind_ok (Prod.ext hk' rfl)
  exact hno _ a (congrArg Prod.fst h1)

/-- The object {"a": itself}. -/
example (d n : Nat) : (Amf0.encodeSharedWithAMF3 (Amf0.decode (fresh [3, 0, 1, 97, 7, 0, 0, 0, 0, 9] false id)).2.refs0 d (.obj [([97], .shared 0)]) Sink.mem).1 ≠ .ok n :=
  (C154_infinite_refuted [3, 0, 1, 97, 7, 0, 0, 0, 0, 9] (by decide) (fresh [3, 0, 1, 97, 7, 0, 0, 0, 0, 9] false id) _ (.fresh false id)
    (.obj [([97], .shared 0)]) (ran (by decide +kernel)) (by
      rintro ⟨w, hw⟩
      have hr : (Amf0.decode (fresh [3, 0, 1, 97, 7, 0, 0, 0, 0, 9] false id)).2.refs0 = [.object [([97], .shared 0)]] := by decide +kernel
      rw [hr] at hw
      cases hw with
      | obj hs =>
        cases hs with
        | cons h1 _ => exact stands_self [97] _ h1) d n).2

/-- C154 fails for the object whose only member is the object itself, under any name: the recursion never ends (in Go the stack
overflows and the process dies). -/
theorem C154_self_refuted (k : Bytes) (hk : k ≠ []) (hl : k.length < 65536) (lim : Nat → Nat) (hc : ∀ n, n ≤ lim n) :
    ∃ s', Amf0.decode (fresh (3 :: (Spec.Amf0.utf8 k ++ [7, 0, 0, 0, 0, 9])) false lim) = (.ok (.obj [(k, .shared 0)]), s') ∧
      s'.data = [] ∧ ∀ d, (Amf3.encodeShared s'.refs0 d (.obj [(k, .shared 0)]) Sink.mem).1 = .diverge := by
  obtain ⟨s', h1, h2, -, h4⟩ := Amf0.gives0_val (.obj [(k, .ref 0)]) ⟨hk, hl, trivial, trivial⟩ Spec.Amf0.Known.none (.obj [(k, .shared 0)])
    { Spec.Amf0.Known.none with complex := [.obj [(k, .shared 0)]] }
    (by simp [Spec.Amf0.P0.den, Spec.Amf0.p0denF, Spec.Amf0.Known.add, Spec.Amf0.Known.put, Spec.Amf0.Known.none, Spec.Amf3.lastWins, List.eraseDups_cons])
    (Spec.Amf0.P0.wire (.obj [(k, .ref 0)])).length.succ (by omega) (fresh (Spec.Amf0.P0.wire (.obj [(k, .ref 0)])) false lim) [] (Amf0.Match0.fresh _ _ _) hc (.inl rfl) (by simp [fresh])
  refine ⟨s', h1, h2, ?_⟩
  have hr := h4.refs rfl
  have hr' : s'.refs0 = [.object [(k, .shared 0)]] := by
    obtain ⟨a, ha⟩ := List.length_eq_one_iff.1 hr.1
    have := hr.2 0 [(k, .shared 0)] rfl
    rw [ha] at this ⊢
    simpa using this
  rw [hr']
  exact fun d => Amf3.self_div' (by omega) d Sink.mem fun _ => rfl

example : ∃ s', Amf0.decode (fresh (3 :: (Spec.Amf0.utf8 [97] ++ [7, 0, 0, 0, 0, 9])) false id) = (.ok (.obj [([97], .shared 0)]), s') ∧
    s'.data = [] ∧ ∀ d, (Amf3.encodeShared s'.refs0 d (.obj [([97], .shared 0)]) Sink.mem).1 = .diverge :=
  C154_self_refuted [97] (by decide) (by decide) id (fun _ => Nat.le_refl _)

section
open Verif.Spec.Amf3

mutual
theorem short_encodable : ∀ v, Encodable v → NoArray v → NoDate v → ShortNames v → Spec.Amf0.Encodable v
  | .nil, _, _, _, _ => trivial
  | .bool _, _, _, _, _ => trivial
  | .f64 _, _, _, _, _ => trivial
  | .uint _ _, _, _, _, _ => trivial
  | .int _ _, _, _, _, _ => trivial
  | .str _, h, _, _, _ => Nat.lt_of_lt_of_le h (by decide)
  | .bytes _, h, _, _, _ => Nat.lt_of_lt_of_le h (by decide)
  | .time _, _, _, hd, _ => hd.elim
  | .arr xs, h, hn, hd, hs => ⟨Nat.lt_of_lt_of_le h.1 (by decide), short_encodableL xs h.2 hn hd hs⟩
  | .obj l, h, hn, hd, hs => ⟨h.2.1, short_encodableF l h.2.2 hn hd hs⟩
  | .typed _ l, h, hn, hd, hs => ⟨hs.1, h.2.2.1, short_encodableF l h.2.2.2 hn hd hs.2⟩
theorem short_encodableL : ∀ v, EncodableL v → NoArrayL v → NoDateL v → ShortNamesL v → Spec.Amf0.EncodableL v
  | [], _, _, _, _ => trivial
  | v :: vs, h, hn, hd, hs => ⟨short_encodable v h.1 hn.1 hd.1 hs.1, short_encodableL vs h.2 hn.2 hd.2 hs.2⟩
theorem short_encodableF : ∀ v, EncodableF v → NoArrayF v → NoDateF v → ShortNamesF v → Spec.Amf0.EncodableF v
  | [], _, _, _, _ => trivial
  | (_, v) :: vs, h, hn, hd, hs => ⟨hs.1, short_encodable v h.2.1 hn.1 hd.1 hs.2.1, short_encodableF vs h.2.2 hn.2 hd.2 hs.2.2⟩
end

/-- C154, from AMF3 to AMF0 (partial): every value a `Decode` of a new decoder returns for any input, if there are no arrays and dates in
it and its member names are ones AMF0 can carry, can be encoded as AMF0, and the bytes stand for that value by the AMF0 specification.
Missing: arrays (`C150_amf3_array_refuted`), dates (`C152_amf0_dates_refuted`), and other names, with which `Encode` succeeds but
writes something else (`C152_amf0_empty_name_refuted`, `C152_amf0_long_name_refuted`). -/
theorem C154_amf3_to_amf0_partial (H : Amf3.Handlers) (data : Bytes) (eofOnEmpty : Bool) (lim : Nat → Nat) (v : Val) (s' : St)
    (h : Amf3.decode H (fresh data eofOnEmpty lim) = (.ok v, s')) (hn : NoArray v) (hd : NoDate v) (hs : ShortNames v) :
    (Amf0.encode v Sink.mem).1 = .ok (amf0Bytes v).length ∧ Spec.Amf0.Denotes0 v (amf0Bytes v) := by
  obtain ⟨b, t, _, hr⟩ := C146_amf3_value_partial H data eofOnEmpty lim v s' h
  have he := (Amf3.e_read hr ⟨by simp [Seen.none], by simp [Seen.none], by simp [Seen.none]⟩).1 hn
  exact C152_amf0_partial v (short_encodable v he.1 hn hd hs) he.2

/-- {"a": 5}. -/
example : Spec.Amf0.Denotes0 (.obj [([97], .uint false 5)]) (amf0Bytes (.obj [([97], .uint false 5)])) :=
  (C154_amf3_to_amf0_partial (fun _ => none) [10, 19, 1, 3, 97, 4, 5] false id (.obj [([97], .uint false 5)]) _ (ran (by decide +kernel))
    ⟨trivial, trivial⟩ ⟨trivial, trivial⟩ ⟨⟨by decide, by decide⟩, trivial, trivial⟩).2

/-- C154 fails for an object with a member that has an empty name: it is decoded from AMF3, and `Encode` for AMF0 writes, without an
error, what stands for no value. -/
theorem C154_empty_name_refuted (H : Amf3.Handlers) (x : Bytes) (hx : x.length < 2 ^ 28) :
    (∃ s', Amf3.decode H (St.buffer (amf3Bytes (.obj [([], .str x)]))) = (.ok (.obj [([], .str x)]), s')) ∧
      (∃ k, (Amf0.encode (.obj [([], .str x)]) Sink.mem).1 = .ok k) ∧
      ¬ ∃ w, Spec.Amf0.Denotes0 w (amf0Bytes (.obj [([], .str x)])) := by
  refine ⟨?_, C152_amf0_empty_name_refuted (.str x) (Nat.lt_of_lt_of_le hx (by decide))⟩
  obtain ⟨_, w, s', h1, _, l, rfl, h3, _, h5⟩ := C30_amf3_round_trip H (.obj [([], .str x)]) ⟨by simp, by simp, by simp, hx, trivial⟩
    (St.buffer (amf3Bytes (.obj [([], .str x)]))) [] (fun _ => Nat.le_refl _) (by simp [St.buffer])
  obtain ⟨a, rfl⟩ := List.length_eq_one_iff.1 h3
  refine ⟨s', ?_⟩
  rw [h1]
  obtain ⟨⟨w, hw, hs⟩, _⟩ := h5
  cases List.mem_singleton.1 hw
  rw [show w = .str x from hs]

example : ¬ ∃ w, Spec.Amf0.Denotes0 w (amf0Bytes (.obj [([], .str [97])])) := (C154_empty_name_refuted (fun _ => none) [97] (by decide)).2.2

end
/-- C154 and C150 fail for arrays in AMF0 that `EncodeWithAMF3` has written: they are decoded from AMF0, and the value can be sent on by
none of the three encoders. -/
theorem C154_embedded_array_refuted (xs : List Val) (hx : Spec.Amf3.Encodable (.arr xs)) :
    ∃ w s', Amf0.decode (St.buffer (Amf0.encodeWithAMF3 (.arr xs) Sink.mem).2.out) = (.ok w, s') ∧ (Amf0.encode w Sink.mem).1 = .err .other ∧
      (Amf3.encode w Sink.mem).1 = .err .other ∧ (Amf0.encodeWithAMF3 w Sink.mem).1 = .err .other := by
  obtain ⟨-, w, s', h1, -, ys, rfl, -⟩ := C26_amf0_with_amf3 (.arr xs) hx (St.buffer (Amf0.encodeWithAMF3 (.arr xs) Sink.mem).2.out) []
    (fun _ => Nat.le_refl _) (by simp [St.buffer])
  refine ⟨_, s', h1, by simp [Amf0.encode, Amf0.enc, GoM.fail], by simp [Amf3.encode, Amf3.enc, GoM.fail], ?_⟩
  simp [Amf0.encodeWithAMF3, Amf0.swallowMarker, writeByte, Sink.write, Sink.mem, Amf3.encode, Amf3.enc, GoM.fail, GoM.bind_apply]

example : ∃ w s', Amf0.decode (St.buffer (Amf0.encodeWithAMF3 (.arr [.nil, .str [97]]) Sink.mem).2.out) = (.ok w, s') ∧
    (Amf0.encode w Sink.mem).1 = .err .other ∧ (Amf3.encode w Sink.mem).1 = .err .other ∧ (Amf0.encodeWithAMF3 w Sink.mem).1 = .err .other :=
  C154_embedded_array_refuted [.nil, .str [97]] (by simp [Spec.Amf3.Encodable, Spec.Amf3.EncodableL])

end Verif.Props
