import Verif.Lemmas.AmfShared
import Verif.Props.AmfAccept
import Verif.Props.Amf0
import Verif.Props.Amf0Peer
import Verif.Props.Amf3
/-!
# Property C150: decoded values can be sent on

`Stands` (`Verif/Spec/AmfShared.lean`): what a value with shared maps stands for.
-/
namespace Verif.Props
open Verif Verif.Amf Verif.Spec.Amf

section
open Verif.Amf0

/-- The decoder after any number of successful calls of `Decode`, made for `data`. -/
inductive AfterDecodes (data : Bytes) : St → Prop
  | fresh (eofOnEmpty : Bool) (lim : Nat → Nat) : AfterDecodes data (fresh data eofOnEmpty lim)
  | step {s v s'} : AfterDecodes data s → Amf0.decode s = (.ok v, s') → AfterDecodes data s'

theorem inv_after {data : Bytes} (h17 : (17 : UInt8) ∉ data) {s} (h : AfterDecodes data s) : Inv s := by
  induction h with
  | fresh e lim => exact ⟨h17, by simp [fresh]⟩
  | step _ hd ih => exact (k_decode _ _ _ ih hd).1

/-- A map that is its own member is no tree. -/
theorem stands_self (k : Bytes) (w : Val) : ¬ Stands (heapOf [.object [(k, .shared 0)]]) (.shared 0) w := by
  have hno : ∀ n w, sizeOf w < n → ¬ Stands (heapOf [.object [(k, .shared 0)]]) (.shared 0) w := by
    intro n
    induction n with
    | zero => intro w hw; omega
    | succ n ih =>
      intro w hw h
      cases h with
      | shared hn hs =>
        cases hn
        cases hs with
        | cons h1 h2 =>
          cases h2
          exact ih _ (by simp at hw; omega) h1
  exact hno _ w (Nat.lt_succ_self _)

/-- C150, AMF0 (partial): a value that any `Decode` call returns, if it is finite, can be encoded, by every sufficiently deep recursion,
and what is written is decoded to the same value, with shared maps now sent twice.  The input is any without AMF3 values (marker 17).
Missing: values that contain themselves. -/
theorem C150_amf0_partial (data : Bytes) (h17 : (17 : UInt8) ∉ data) (s s' : St) (hs : AfterDecodes data s) (v w : Val)
    (h : Amf0.decode s = (.ok v, s')) (hw : Stands (heapOf s'.refs0) v w) :
    ∃ depth out, ∀ d, depth ≤ d →
      (encodeShared s'.refs0 d v Sink.mem).1 = .ok out.length ∧ (encodeShared s'.refs0 d v Sink.mem).2.out = out ∧
      ∀ rest, ∃ s'', Amf0.decode (St.buffer (out ++ rest)) = (.ok w, s'') ∧ s''.data = rest := by
  obtain ⟨i, _, g⟩ := k_decode s v s' (inv_after h17 hs) h
  obtain ⟨he, hp⟩ := stands_ok i.refs hw g
  obtain ⟨f0, hf⟩ := shared_enc hw
  refine ⟨f0, amf0Bytes w, fun d hd => ?_⟩
  rw [hf d hd]
  exact ⟨(C17_amf0_round_trip w he hp (St.buffer (amf0Bytes w)) [] (fun _ => Nat.le_refl _) (by simp [St.buffer]) (by simp [St.buffer])).1, by simp [amf0Bytes, Amf0.encode],
    fun rest => C17_amf0_round_trip_buffer w he hp rest⟩

/-- An array with an object and a reference to it. -/
example : ∃ depth out, ∀ d, depth ≤ d →
    (encodeShared (Amf0.decode (fresh [10, 0, 0, 0, 2, 3, 0, 1, 97, 5, 0, 0, 9, 7, 0, 1] false id)).2.refs0 d (.arr [.obj [([97], .nil)], .shared 1]) Sink.mem).1 = .ok out.length ∧
    (encodeShared (Amf0.decode (fresh [10, 0, 0, 0, 2, 3, 0, 1, 97, 5, 0, 0, 9, 7, 0, 1] false id)).2.refs0 d (.arr [.obj [([97], .nil)], .shared 1]) Sink.mem).2.out = out ∧
    ∀ rest, ∃ s'', Amf0.decode (St.buffer (out ++ rest)) = (.ok (.arr [.obj [([97], .nil)], .obj [([97], .nil)]]), s'') ∧ s''.data = rest :=
  C150_amf0_partial [10, 0, 0, 0, 2, 3, 0, 1, 97, 5, 0, 0, 9, 7, 0, 1] (by decide) (fresh [10, 0, 0, 0, 2, 3, 0, 1, 97, 5, 0, 0, 9, 7, 0, 1] false id) _
    (.fresh false id) (.arr [.obj [([97], .nil)], .shared 1]) (.arr [.obj [([97], .nil)], .obj [([97], .nil)]]) (ran (by decide +kernel))
    (.arr (.cons (.obj (.cons .nil .nil)) (.cons (.shared (l := [([97], .nil)]) (by decide +kernel) (.cons .nil .nil)) .nil)))

/-- C150 fails exactly for the values that are not finite: encoding such a value never ends (in Go the stack overflows and the process
dies), whatever the depth of the recursion. -/
theorem C150_amf0_infinite_refuted (data : Bytes) (h17 : (17 : UInt8) ∉ data) (s s' : St) (hs : AfterDecodes data s) (v : Val)
    (h : Amf0.decode s = (.ok v, s')) (hw : ¬ ∃ w, Stands (heapOf s'.refs0) v w) (d : Nat) :
    (encodeShared s'.refs0 d v Sink.mem).1 = .diverge := by
  obtain ⟨i, _, g⟩ := k_decode s v s' (inv_after h17 hs) h
  rcases div_shared i.refs d v g with hx | hx
  · exact absurd hx hw
  · exact hx Sink.mem fun _ => rfl

/-- The object {"a": itself}. -/
example (d : Nat) : (encodeShared (Amf0.decode (fresh [3, 0, 1, 97, 7, 0, 0, 0, 0, 9] false id)).2.refs0 d (.obj [([97], .shared 0)]) Sink.mem).1 = .diverge :=
  C150_amf0_infinite_refuted [3, 0, 1, 97, 7, 0, 0, 0, 0, 9] (by decide) (fresh [3, 0, 1, 97, 7, 0, 0, 0, 0, 9] false id) _ (.fresh false id)
    (.obj [([97], .shared 0)]) (ran (by decide +kernel)) (by
      rintro ⟨w, hw⟩
      have hr : (Amf0.decode (fresh [3, 0, 1, 97, 7, 0, 0, 0, 0, 9] false id)).2.refs0 = [.object [([97], .shared 0)]] := by decide +kernel
      rw [hr] at hw
      cases hw with
      | obj hs =>
        cases hs with
        | cons h1 _ => exact stands_self [97] _ h1) d

/-- C150 fails for the object whose only member is the object itself, under any name: it is decoded, and then cannot be encoded. -/
theorem C150_amf0_self_refuted (k : Bytes) (hk : k ≠ []) (hl : k.length < 65536) (lim : Nat → Nat) (hc : ∀ n, n ≤ lim n) :
    ∃ s', Amf0.decode (fresh (3 :: (Spec.Amf0.utf8 k ++ [7, 0, 0, 0, 0, 9])) false lim) = (.ok (.obj [(k, .shared 0)]), s') ∧
      s'.data = [] ∧ ∀ d, (encodeShared s'.refs0 d (.obj [(k, .shared 0)]) Sink.mem).1 = .diverge := by
  obtain ⟨s', h1, h2, -, h4⟩ := gives0_val (.obj [(k, .ref 0)]) ⟨hk, hl, trivial, trivial⟩ Spec.Amf0.Known.none (.obj [(k, .shared 0)])
    { Spec.Amf0.Known.none with complex := [.obj [(k, .shared 0)]] }
    (by simp [Spec.Amf0.P0.den, Spec.Amf0.p0denF, Spec.Amf0.Known.add, Spec.Amf0.Known.put, Spec.Amf0.Known.none, Spec.Amf3.lastWins, List.eraseDups_cons])
    (Spec.Amf0.P0.wire (.obj [(k, .ref 0)])).length.succ (by omega) (fresh (Spec.Amf0.P0.wire (.obj [(k, .ref 0)])) false lim) [] (Match0.fresh _ _ _) hc (.inl rfl) (by simp [fresh])
  refine ⟨s', ?_, h2, ?_⟩
  · exact h1
  · have hr := h4.refs rfl
    have hr' : s'.refs0 = [.object [(k, .shared 0)]] := by
      obtain ⟨a, ha⟩ := List.length_eq_one_iff.1 hr.1
      have := hr.2 0 [(k, .shared 0)] rfl
      rw [ha] at this ⊢
      simpa using this
    rw [hr']
    intro d
    have hg : Good [.object [(k, .shared 0)]] := by
      intro l hl'
      simp only [List.mem_singleton, Ref0.object.injEq] at hl'
      subst hl'
      exact ⟨by simp, ⟨List.length_pos_iff.2 hk, by omega⟩, ⟨_, rfl⟩, trivial⟩
    rcases div_shared hg d (.obj [(k, .shared 0)]) ⟨by simp, ⟨List.length_pos_iff.2 hk, by omega⟩, ⟨_, rfl⟩, trivial⟩ with hx | hx
    · exfalso
      obtain ⟨w, hw⟩ := hx
      cases hw with
      | obj hs =>
        cases hs with
        | cons h1 _ => exact stands_self k _ h1
    · exact hx Sink.mem fun _ => rfl

example : ∃ s', Amf0.decode (fresh (3 :: (Spec.Amf0.utf8 [97] ++ [7, 0, 0, 0, 0, 9])) false id) = (.ok (.obj [([97], .shared 0)]), s') ∧
    s'.data = [] ∧ ∀ d, (encodeShared s'.refs0 d (.obj [([97], .shared 0)]) Sink.mem).1 = .diverge :=
  C150_amf0_self_refuted [97] (by decide) (by decide) id (fun _ => Nat.le_refl _)

end

section
open Verif.Amf3 Verif.Spec.Amf3

/-- C150, AMF3 (partial): every value a `Decode` of a new decoder returns for any input, if there are no arrays in it and no dates more than
2^53 milliseconds from 1970, can be encoded, and what is written is decoded to the corresponding value.  Missing: arrays, which
the encoder does not know (`C150_amf3_array_refuted`). -/
theorem C150_amf3_partial (H H' : Handlers) (data : Bytes) (eofOnEmpty : Bool) (lim : Nat → Nat) (v : Val) (s' : St)
    (h : Amf3.decode H (fresh data eofOnEmpty lim) = (.ok v, s')) (hn : NoArray v) (rest : Bytes) :
    (Amf3.encode v Sink.mem).1 = .ok (amf3Bytes v).length ∧
    ∃ w s'', Amf3.decode H' (St.buffer (amf3Bytes v ++ rest)) = (.ok w, s'') ∧ s''.data = rest ∧ Same v w := by
  obtain ⟨b, t, _, hr⟩ := C146_amf3_value_partial H data eofOnEmpty lim v s' h
  have he := ((e_read hr ⟨by simp [Seen.none], by simp [Seen.none], by simp [Seen.none]⟩).1 hn).1
  exact C30_amf3_round_trip H' v he _ rest (fun _ => Nat.le_refl _) rfl

/-- A byte array that is cut off is still sent on. -/
example : (Amf3.encode (.bytes [1, 0]) Sink.mem).1 = .ok (amf3Bytes (.bytes [1, 0])).length ∧
    ∃ w s'', Amf3.decode (fun _ => none) (St.buffer (amf3Bytes (.bytes [1, 0]) ++ [9])) = (.ok w, s'') ∧ s''.data = [9] ∧ Same (.bytes [1, 0]) w :=
  C150_amf3_partial (fun _ => none) (fun _ => none) [12, 5, 1] false id (.bytes [1, 0]) _ (ran (by decide +kernel)) trivial [9]

/-- A date in an object, sent twice, the second time by reference. -/
example : ∃ w s'', Amf3.decode (fun _ => none)
      (St.buffer (amf3Bytes (.obj [([97], .time 1700000000), ([98], .time 1700000000)]) ++ [])) = (.ok w, s'') ∧ s''.data = [] ∧
      Same (.obj [([97], .time 1700000000), ([98], .time 1700000000)]) w :=
  (C150_amf3_partial (fun _ => none) (fun _ => none)
    ([10, 35, 1, 3, 97, 3, 98, 8, 1] ++ be64 (F64.ofInt 1700000000000) ++ [8, 2]) false id (.obj [([97], .time 1700000000), ([98], .time 1700000000)]) _ (ran (by decide +kernel))
    ⟨by simp [NoArray], by simp [NoArray], trivial⟩ []).2

/-- C150 fails for arrays: what the package itself encodes for an array is decoded to a value that neither encoder accepts. -/
theorem C150_amf3_array_refuted (H : Handlers) (xs : List Val) (hx : Encodable (.arr xs)) :
    ∃ w s', Amf3.decode H (St.buffer (amf3Bytes (.arr xs))) = (.ok w, s') ∧
      (Amf3.encode w Sink.mem).1 = .err .other ∧ (Amf0.encode w Sink.mem).1 = .err .other := by
  obtain ⟨_, w, s', h1, _, ys, rfl, _⟩ := C30_amf3_round_trip H (.arr xs) hx (St.buffer (amf3Bytes (.arr xs))) [] (fun _ => Nat.le_refl _) (by simp [St.buffer])
  exact ⟨_, s', h1, by simp [Amf3.encode, Amf3.enc, GoM.fail], by simp [Amf0.encode, Amf0.enc, GoM.fail]⟩

example : ∃ w s', Amf3.decode (fun _ => none) (St.buffer (amf3Bytes (.arr [.nil]))) = (.ok w, s') ∧
    (Amf3.encode w Sink.mem).1 = .err .other ∧ (Amf0.encode w Sink.mem).1 = .err .other :=
  C150_amf3_array_refuted (fun _ => none) [.nil] ⟨by simp, trivial, trivial⟩

end
end Verif.Props
