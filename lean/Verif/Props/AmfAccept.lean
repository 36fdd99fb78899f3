import Verif.Lemmas.AmfTakes0
import Verif.Props.AmfMeta
/-!
# Properties C146 and C147: what the AMF decoders accept

Which bytes are AMF and what they mean is specified in `Verif/Spec/AmfAccept.lean`.
-/
namespace Verif.Props
open Verif Verif.Amf Verif.Spec.Amf

section
open Verif.Amf3 Verif.Spec.Amf3

theorem holds_fresh (data : Bytes) (e : Bool) (lim : Nat → Nat) : Holds Seen.none (fresh data e lim) :=
  ⟨rfl, rfl, by simp [Seen.none], by simp [Seen.none], rfl, by simp [fresh], by simp [Seen.none]⟩

theorem holds0_fresh (data : Bytes) (e : Bool) (lim : Nat → Nat) : Amf0.Holds0 Spec.Amf0.Seen0.none (fresh data e lim) :=
  ⟨holds_fresh data e lim, rfl, by simp [Spec.Amf0.Seen0.none], by simp [Spec.Amf0.Seen0.none]⟩

/-! ## C146 -/

/-- C146, AMF3 (partial): the values a fresh decoder returns are those that a beginning of its input denotes: every value is
described by the specification, starts where the one before it ends, and refers only to what has been sent.  The reader may
split the input in any way.  Missing: with `false` the deviations listed in `Verif/Spec/AmfAccept.lean` are admitted. -/
theorem C146_amf3_partial (H : Handlers) (data : Bytes) (eofOnEmpty : Bool) (lim : Nat → Nat) (vs : List Val) (e : Option Err) (s' : St)
    (h : Amf3.decodeBatch H (fresh data eofOnEmpty lim) = (.ok (vs, e), s')) :
    ∃ b rest t, data = b ++ rest ∧ ReadAll false Seen.none b vs t := by
  obtain ⟨b, rest, t, h1, h2⟩ := sound_batchLoop (sound_decode H) _ Seen.none Seen.none [] [] _ .nil (holds_fresh data eofOnEmpty lim) vs e s' h
  exact ⟨b, rest, t, h1, h2⟩

/-- The string "ab" and then a marker that does not exist. -/
example : ∃ b rest t, [6, 5, 97, 98, 32] = b ++ rest ∧ ReadAll false Seen.none b [.str [97, 98]] t :=
  C146_amf3_partial (fun _ => none) [6, 5, 97, 98, 32] true id [.str [97, 98]] (some .other) _ (ran (by decide +kernel))

/-- The same for a single value: exactly the bytes of that value are consumed. -/
theorem C146_amf3_value_partial (H : Handlers) (data : Bytes) (eofOnEmpty : Bool) (lim : Nat → Nat) (v : Val) (s' : St)
    (h : Amf3.decode H (fresh data eofOnEmpty lim) = (.ok v, s')) :
    ∃ b t, data = b ++ s'.data ∧ Read false Seen.none b v t := by
  obtain ⟨b, t, h1, h2, _⟩ := sound_decode H Seen.none _ v s' (holds_fresh data eofOnEmpty lim) h
  exact ⟨b, t, h1, h2⟩

example : ∃ b t, [9, 3, 1, 2, 7] = b ++ [7] ∧ Read false Seen.none b (.ecma [.bool false] []) t :=
  C146_amf3_value_partial (fun _ => none) [9, 3, 1, 2, 7] false id (.ecma [.bool false] [])
    { fresh [7] false id with objTab := [.ecma [] []] } (ran (by decide +kernel))

theorem isU29_unique {b n m} (h : IsU29 b n) (h' : IsU29 b m) : n = m := by
  cases h <;> cases h' <;> rfl

/-- Every integer from 2^28 on is accepted and read as a positive number, although it is a negative one. -/
theorem C146_amf3_refuted (H : Handlers) (u : Bytes) (n : Nat) (hu : IsU29 u n) (hn : 2 ^ 28 ≤ n) (lim : Nat → Nat) (hc : ∀ k, k ≤ lim k) :
    (∃ s', Amf3.decode H (fresh (4 :: u) true lim) = (.ok (.uint false n), s')) ∧ ¬ ∃ v t, Read true Seen.none (4 :: u) v t := by
  constructor
  · show ∃ s', dec H ((4 :: u).length + 1) (fresh (4 :: u) true lim) = _
    rw [dec_succ]
    have hlt := u29_lt hu
    have h1 : Takes Seen.none (readUint29 >>= fun x => pure (Val.uint false x.toNat)) u (.uint false n) Seen.none := by
      refine (takes_readUint29 hu).last ?_
      rw [show (UInt32.ofNat n).toNat = n by rw [UInt32.toNat_ofNat', Nat.mod_eq_of_lt (by omega)]]
      exact .pure _
    have h2 := (Takes.readByte (t := Seen.none) 4).bind (f := branch H (4 :: u).length) (c := u) h1
    obtain ⟨s', h3, _⟩ := h2 (fresh (4 :: u) true lim) [] (holds_fresh _ _ _) hc (by simp [fresh])
    exact ⟨s', h3⟩
  · rintro ⟨v, t, h⟩
    cases h with
    | int h1 h2 => have := isU29_unique hu h1; have := h2 rfl; omega
    | blob _ _ h => cases h
    | empty h => cases h
    | cut h => cases h
    | @again _ _ _ _ v _ h hk => cases v <;> simp [KindOk] at hk
    | lost h => cases h

example : (∃ s', Amf3.decode (fun _ => none) (fresh [4, 255, 255, 255, 255] true id) = (.ok (.uint false 536870911), s')) ∧
    ¬ ∃ v t, Read true Seen.none [4, 255, 255, 255, 255] v t :=
  C146_amf3_refuted (fun _ => none) [255, 255, 255, 255] 536870911 (by simpa using IsU29.four 255 255 255 255 (by decide) (by decide) (by decide)) (by omega)
    id (fun _ => Nat.le_refl _)

end

section
open Verif.Spec.Amf0

/-- C146, AMF0 (partial): as above. -/
theorem C146_amf0_partial (data : Bytes) (eofOnEmpty : Bool) (lim : Nat → Nat) (vs : List Val) (e : Option Err) (s' : St)
    (h : Amf0.decodeBatch (fresh data eofOnEmpty lim) = (.ok (vs, e), s')) :
    ∃ b rest t, data = b ++ rest ∧ ReadAll0 false Seen0.none b vs t := by
  obtain ⟨b, rest, t, h1, h2⟩ := Amf0.sound0_batchLoop Amf0.sound0_decode _ Seen0.none Seen0.none [] [] _ .nil (holds0_fresh data eofOnEmpty lim) vs e s' h
  exact ⟨b, rest, t, h1, h2⟩

/-- An object {"a": null}, then one whose end marker is missing. -/
example : ∃ b rest t, [3, 0, 1, 97, 5, 0, 0, 9, 3, 0, 0, 8] = b ++ rest ∧ ReadAll0 false Seen0.none b [.obj [([97], .nil)]] t :=
  C146_amf0_partial [3, 0, 1, 97, 5, 0, 0, 9, 3, 0, 0, 8] true id [.obj [([97], .nil)]] (some .other) _ (ran (by decide +kernel))

theorem C146_amf0_value_partial (data : Bytes) (eofOnEmpty : Bool) (lim : Nat → Nat) (v : Val) (s' : St)
    (h : Amf0.decode (fresh data eofOnEmpty lim) = (.ok v, s')) :
    ∃ b t, data = b ++ s'.data ∧ Read0 false Seen0.none b v t := by
  obtain ⟨b, t, h1, h2, _⟩ := Amf0.sound0_decode Seen0.none _ v s' (holds0_fresh data eofOnEmpty lim) h
  exact ⟨b, t, h1, h2⟩

example : ∃ b t, [2, 0, 1, 65, 9] = b ++ [9] ∧ Read0 false Seen0.none b (.str [65]) t :=
  C146_amf0_value_partial [2, 0, 1, 65, 9] false id (.str [65]) (fresh [9] false id) (ran (by decide +kernel))

/-- Every byte is accepted as a boolean. -/
theorem C146_amf0_refuted (b : UInt8) (hb : b ≠ 0) (hb1 : b ≠ 1) (eofOnEmpty : Bool) (lim : Nat → Nat) (hc : ∀ k, k ≤ lim k) :
    (∃ s', Amf0.decode (fresh [1, b] eofOnEmpty lim) = (.ok (.bool false), s')) ∧ ¬ ∃ v t, Read0 true Seen0.none [1, b] v t := by
  constructor
  · show ∃ s', Amf0.dec 3 (fresh [1, b] eofOnEmpty lim) = _
    rw [Amf0.dec_succ]
    refine ⟨fresh [] eofOnEmpty lim, ?_⟩
    have h1 : Amf0.branch 2 1 = (readByte >>= fun x => pure (Val.bool (x == 1))) := by simp only [Amf0.branch]; rfl
    rw [GoM.bind_apply, Safe.readByte_cons (s := fresh [1, b] eofOnEmpty lim) (x := 1) (t := [b]) rfl]
    simp only [h1, GoM.bind_apply]
    rw [Safe.readByte_cons (x := b) (t := []) rfl]
    simp [fresh, hb1, GoM.pure_apply]
  · rintro ⟨v, t, h⟩
    generalize hx : [1, b] = x at h
    cases h with
    | bool c h =>
      obtain rfl : b = c := by simpa using hx
      exact (h rfl).elim hb hb1
    | _ => simp at hx

example : (∃ s', Amf0.decode (fresh [1, 255] true id) = (.ok (.bool false), s')) ∧ ¬ ∃ v t, Read0 true Seen0.none [1, 255] v t :=
  C146_amf0_refuted 255 (by decide) (by decide) true id (fun _ => Nat.le_refl _)

end

/-! ## C147 -/

section
open Verif.Amf3 Verif.Spec.Amf3

theorem takes_batch (H : Handlers) (vs : List Val) : ∀ (t t' : Seen) (b : Bytes) (fuel : Nat) (ret : List Val) (s : St), ReadAll true t b vs t' →
    vs.length < fuel → s.Contig → Holds t s → s.data = b →
    ∃ s', batchLoop (Amf3.decode H) fuel ret s = (.ok (ret ++ vs, none), s') ∧ s'.data = [] := by
  induction vs with
  | nil =>
    intro t t' b fuel ret s h hf hc hm hd
    obtain ⟨f, rfl⟩ : ∃ f, fuel = f + 1 := ⟨fuel - 1, by simp at hf; omega⟩
    cases h
    have he : Amf3.decode H s = (.err .eof, s) := by
      unfold Amf3.decode
      rw [dec_succ, GoM.bind_apply, Safe.readByte_nil hd]
    exact ⟨s, by simp [batchLoop, he], hd⟩
  | cons v vs ih =>
    intro t t' b fuel ret s h hf hc hm hd
    obtain ⟨f, rfl⟩ : ∃ f, fuel = f + 1 := ⟨fuel - 1, by simp at hf; omega⟩
    cases h with
    | @cons _ b _ t1 c _ _ h1 h2 =>
      obtain ⟨s1, g1, g2, g3, g4⟩ := takes_decode H h1 s c hm hc hd
      obtain ⟨s', h5, h6⟩ := ih t1 t' c f (ret ++ [v]) s1 h2 (by simp at hf; omega) (by unfold St.Contig; rw [g3.1]; exact hc) g4 g2
      exact ⟨s', by simp [batchLoop, g1, h5], h6⟩

theorem read_pos {strict t b v t'} (h : Read strict t b v t') : 0 < b.length := by cases h <;> simp

theorem readAll_length {strict b vs} : ∀ {t t'}, ReadAll strict t b vs t' → vs.length ≤ b.length := by
  induction vs generalizing b with
  | nil => simp
  | cons v vs ih =>
    intro t t' h
    cases h with
    | cons h1 h2 =>
      have := read_pos h1
      have := ih h2
      simp only [List.length_cons, List.length_append]; omega

/-- C147, AMF3: a fresh decoder given any sequence of values of the specification returns them all, without an error, whichever
number of bytes the sender uses for integers, lengths and references. -/
theorem C147_amf3_any_length (H : Handlers) (b : Bytes) (vs : List Val) (t : Seen) (h : ReadAll true Seen.none b vs t) (eofOnEmpty : Bool)
    (lim : Nat → Nat) (hc : ∀ n, n ≤ lim n) :
    ∃ s', Amf3.decodeBatch H (fresh b eofOnEmpty lim) = (.ok (vs, none), s') ∧ s'.data = [] := by
  obtain ⟨s', h1, h2⟩ := takes_batch H vs Seen.none t b (b.length + 1) [] (fresh b eofOnEmpty lim) h
    (by have := readAll_length h; omega) hc (holds_fresh b eofOnEmpty lim) rfl
  exact ⟨s', by simpa [Amf3.decodeBatch, fresh] using h1, h2⟩

/-- The string "ab" with its length in four bytes, and again by reference, in two. -/
example : ∃ s', Amf3.decodeBatch (fun _ => none) (fresh ([6, 128, 128, 128, 5, 97, 98] ++ ([6, 128, 0] ++ [])) true id) =
    (.ok ([.str [97, 98], .str [97, 98]], none), s') ∧ s'.data = [] :=
  C147_amf3_any_length (fun _ => none) _ _ ⟨[[97, 98]], [], []⟩
    (.cons (.str (.full (u := [128, 128, 128, 5]) (by simpa using IsU29.four 128 128 128 5 (by decide) (by decide) (by decide)) (by decide)))
      (.cons (.str (.ref (u := [128, 0]) (i := 0) (by simpa using IsU29.two 128 0 (by decide) (by decide)) rfl)) .nil)) true id (fun _ => Nat.le_refl _)

end

section
open Verif.Spec.Amf0

theorem takes0_batch (vs : List Val) : ∀ (t t' : Seen0) (b : Bytes) (fuel : Nat) (ret : List Val) (s : St), ReadAll0 true t b vs t' →
    vs.length < fuel → s.Contig → s.eofOnEmpty = false → Amf0.Holds0 t s → s.data = b →
    ∃ s', Amf3.batchLoop Amf0.decode fuel ret s = (.ok (ret ++ vs, none), s') ∧ s'.data = [] := by
  induction vs with
  | nil =>
    intro t t' b fuel ret s h hf hc he hm hd
    obtain ⟨f, rfl⟩ : ∃ f, fuel = f + 1 := ⟨fuel - 1, by simp at hf; omega⟩
    cases h
    have he : Amf0.decode s = (.err .eof, s) := by
      unfold Amf0.decode
      rw [Amf0.dec_succ, GoM.bind_apply, Safe.readByte_nil hd]
    exact ⟨s, by simp [Amf3.batchLoop, he], hd⟩
  | cons v vs ih =>
    intro t t' b fuel ret s h hf hc he hm hd
    obtain ⟨f, rfl⟩ : ∃ f, fuel = f + 1 := ⟨fuel - 1, by simp at hf; omega⟩
    cases h with
    | @cons _ b _ t1 c _ _ h1 h2 =>
      obtain ⟨s1, g1, g2, g3, g4⟩ := (Amf0.takes0_decode h1).2 s c hm hc (.inl he) hd
      obtain ⟨s', h5, h6⟩ := ih t1 t' c f (ret ++ [v]) s1 h2 (by simp at hf; omega) (by unfold St.Contig; rw [g3.1]; exact hc)
        (g3.2.trans he) g4 g2
      exact ⟨s', by simp [Amf3.batchLoop, g1, h5], h6⟩

theorem read0_pos {strict t b v t'} (h : Read0 strict t b v t') : 0 < b.length := by cases h <;> simp

theorem readAll0_length {strict b vs} : ∀ {t t'}, ReadAll0 strict t b vs t' → vs.length ≤ b.length := by
  induction vs generalizing b with
  | nil => simp
  | cons v vs ih =>
    intro t t' h
    cases h with
    | cons h1 h2 =>
      have := read0_pos h1
      have := ih h2
      simp only [List.length_cons, List.length_append]; omega

/-- C147, AMF0: the same for AMF0 messages, also with AMF3 values in them, read from a buffer (C24: at the end of a `bytes.Reader` an
empty string is not read). -/
theorem C147_amf0_any_length (b : Bytes) (vs : List Val) (t : Seen0) (h : ReadAll0 true Seen0.none b vs t) (lim : Nat → Nat) (hc : ∀ n, n ≤ lim n) :
    ∃ s', Amf0.decodeBatch (fresh b false lim) = (.ok (vs, none), s') ∧ s'.data = [] := by
  obtain ⟨s', h1, h2⟩ := takes0_batch vs Seen0.none t b (b.length + 1) [] (fresh b false lim) h
    (by have := readAll0_length h; omega) hc rfl (holds0_fresh b false lim) rfl
  exact ⟨s', by simpa [Amf0.decodeBatch, fresh] using h1, h2⟩

/-- An AMF3 string with a long length in an AMF0 array. -/
example : ∃ s', Amf0.decodeBatch (fresh ((10 :: (be32 1 ++ ((17 :: 6 :: [128, 128, 3, 97]) ++ []))) ++ []) false id) =
    (.ok ([.arr [.str [97]]], none), s') ∧ s'.data = [] :=
  C147_amf0_any_length _ _ ⟨⟨[[97]], [], []⟩, [false], 0⟩
    (.cons (.strictArr (xs := [.str [97]]) (by decide) (.cons (.amf3 (.str (.full (u := [128, 128, 3]) (by simpa using Spec.Amf3.IsU29.three 128 128 3 (by decide) (by decide) (by decide))
      (by decide)))) .nil)) .nil) id (fun _ => Nat.le_refl _)

/-- So what the bytes denote is unique. -/
theorem C147_amf0_unique (b : Bytes) (vs vs' : List Val) (t t' : Seen0) (h : ReadAll0 true Seen0.none b vs t) (h' : ReadAll0 true Seen0.none b vs' t') :
    vs = vs' := by
  obtain ⟨s1, h1, _⟩ := C147_amf0_any_length b vs t h id (fun _ => Nat.le_refl _)
  obtain ⟨s2, h2, _⟩ := C147_amf0_any_length b vs' t' h' id (fun _ => Nat.le_refl _)
  rw [h1] at h2
  simpa using (Prod.mk.inj h2).1

example : ReadAll0 true Seen0.none ([1, 1] ++ ([5] ++ [])) [.bool true, .nil] Seen0.none := .cons (.bool 1 (by simp)) (.cons .null .nil)

end
end Verif.Props
