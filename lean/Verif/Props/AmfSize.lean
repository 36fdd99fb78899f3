import Verif.Lemmas.AmfSize
import Verif.Props.AmfAccept
import Verif.Props.Amf3
/-!
# Property C149: decoded values are not larger than the message

`count` and `Fits` are in `Verif/Spec/AmfSize.lean`.
-/
namespace Verif.Props
open Verif Verif.Amf Verif.Spec.Amf

/-- C149, AMF3: whatever the bytes are and however they are split, the values `DecodeBatch` returns consist, with all that is inside
them, of at most as many values as there are bytes. -/
theorem C149_amf3_count (H : Amf3.Handlers) (data : Bytes) (eofOnEmpty : Bool) (lim : Nat → Nat) (vs : List Val) (e : Option Err) (s' : St)
    (h : Amf3.decodeBatch H (fresh data eofOnEmpty lim) = (.ok (vs, e), s')) : countL vs ≤ data.length := by
  obtain ⟨b, rest, t, rfl, hr⟩ := C146_amf3_partial H data eofOnEmpty lim vs e s' h
  have := (count_readAll hr (by simp [Leaf, Spec.Amf3.Seen.none])).1
  simp only [List.length_append]; omega

/-- An array in an array, six bytes. -/
example : countL [.ecma [.ecma [] []] []] ≤ [9, 3, 1, 9, 1, 1].length :=
  C149_amf3_count (fun _ => none) [9, 3, 1, 9, 1, 1] true id [.ecma [.ecma [] []] []] none _ (ran (by decide +kernel))

/-- The same for AMF0. -/
theorem C149_amf0_count (data : Bytes) (eofOnEmpty : Bool) (lim : Nat → Nat) (vs : List Val) (e : Option Err) (s' : St)
    (h : Amf0.decodeBatch (fresh data eofOnEmpty lim) = (.ok (vs, e), s')) : countL vs ≤ data.length := by
  obtain ⟨b, rest, t, rfl, hr⟩ := C146_amf0_partial data eofOnEmpty lim vs e s' h
  have := (count_readAll0 hr (by simp [Leaf, Spec.Amf0.Seen0.none, Spec.Amf3.Seen.none])).1
  simp only [List.length_append]; omega

/-- An array of four values in nine bytes. -/
example : countL [.arr [.nil, .nil, .nil, .nil]] ≤ [10, 0, 0, 0, 4, 5, 5, 6, 13].length :=
  C149_amf0_count [10, 0, 0, 0, 4, 5, 5, 6, 13] false id [.arr [.nil, .nil, .nil, .nil]] none _ (ran (by decide +kernel))

/-- C149, AMF3 (partial): of messages of the specification also no string, name or byte array is longer than the message.  Missing: this
fails for byte arrays and XML documents that are cut off. -/
theorem C149_amf3_length_partial (H : Amf3.Handlers) (b : Bytes) (vs : List Val) (t : Spec.Amf3.Seen) (h : Spec.Amf3.ReadAll true Spec.Amf3.Seen.none b vs t)
    (eofOnEmpty : Bool) (lim : Nat → Nat) (hc : ∀ n, n ≤ lim n) :
    ∃ s', Amf3.decodeBatch H (fresh b eofOnEmpty lim) = (.ok (vs, none), s') ∧ FitsL b.length vs := by
  obtain ⟨s', h1, _⟩ := C147_amf3_any_length H b vs t h eofOnEmpty lim hc
  exact ⟨s', h1, (fits_readAll h ⟨by simp [Spec.Amf3.Seen.none], by simp [Spec.Amf3.Seen.none], by simp [Spec.Amf3.Seen.none]⟩ (Nat.le_refl _)).1⟩

/-- The string "ab", and again by reference. -/
example : ∃ s', Amf3.decodeBatch (fun _ => none) (fresh ([6, 5, 97, 98] ++ ([6, 0] ++ [])) true id) =
    (.ok ([.str [97, 98], .str [97, 98]], none), s') ∧ FitsL 6 [.str [97, 98], .str [97, 98]] :=
  C149_amf3_length_partial (fun _ => none) _ [.str [97, 98], .str [97, 98]] ⟨[[97, 98]], [], []⟩
    (.cons (.str (.full (u := [5]) (by simpa using Spec.Amf3.IsU29.one 5 (by decide)) (by decide)))
      (.cons (.str (.ref (u := [0]) (i := 0) (by simpa using Spec.Amf3.IsU29.one 0 (by decide)) rfl)) .nil)) true id (fun _ => Nat.le_refl _)

/-- C149, AMF0 (partial): the same for every input whatsoever, as long as there is no AMF3 value in it, whose marker is 17. -/
theorem C149_amf0_length_partial (data : Bytes) (h17 : 17 ∉ data) (eofOnEmpty : Bool) (lim : Nat → Nat) (vs : List Val) (e : Option Err) (s' : St)
    (h : Amf0.decodeBatch (fresh data eofOnEmpty lim) = (.ok (vs, e), s')) : FitsL data.length vs := by
  obtain ⟨b, rest, t, rfl, hr⟩ := C146_amf0_partial data eofOnEmpty lim vs e s' h
  exact (fits_readAll0 hr (.inr fun h => h17 (List.mem_append_left _ h))
    ⟨by simp [Spec.Amf0.Seen0.none, Spec.Amf3.Seen.none], by simp [Spec.Amf0.Seen0.none, Spec.Amf3.Seen.none], by simp [Spec.Amf0.Seen0.none, Spec.Amf3.Seen.none]⟩ (by simp)).1

/-- A string, and one whose length is a lie. -/
example : FitsL 9 [.str [97]] :=
  C149_amf0_length_partial [2, 0, 1, 97, 2, 255, 255, 97, 98] (by decide) false id [.str [97]] (some .other) _ (ran (by decide +kernel))

/-- C149 fails: with one byte of content a byte array of every length below 2^28 can be had, from at most six bytes. -/
theorem C149_length_refuted (H : Amf3.Handlers) (x : UInt8) (n : Nat) (h1 : 1 < n) (hn : n < 2 ^ 28) :
    ∃ data : Bytes, data.length ≤ 6 ∧ ∀ (eofOnEmpty : Bool) (lim : Nat → Nat), (∀ n, n ≤ lim n) →
      ∃ c s', c.length = n ∧ Amf3.decode H (fresh data eofOnEmpty lim) = (.ok (.bytes c), s') := by
  refine ⟨12 :: Spec.Amf3.u29 (2 * n + 1) ++ [x], ?_, ?_⟩
  · unfold Spec.Amf3.u29
    split
    · simp
    · split
      · simp
      · split <;> simp
  · intro e lim hc
    obtain ⟨s', hs⟩ := C36_amf3_truncated_refuted H 12 (by simp) n hn [x] ⟨by simp, by simpa using h1⟩ (fresh (12 :: Spec.Amf3.u29 (2 * n + 1) ++ [x]) e lim) hc rfl
    exact ⟨[x] ++ List.replicate (n - 1) 0, s', by simp; omega, by simpa using hs⟩

example : ∃ data : Bytes, data.length ≤ 6 ∧ ∀ (eofOnEmpty : Bool) (lim : Nat → Nat), (∀ n, n ≤ lim n) →
    ∃ c s', c.length = 268435455 ∧ Amf3.decode (fun _ => none) (fresh data eofOnEmpty lim) = (.ok (.bytes c), s') :=
  C149_length_refuted (fun _ => none) 1 268435455 (by omega) (by omega)

end Verif.Props
