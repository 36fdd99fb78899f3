import Verif.Lemmas.Amf3Peer
import Verif.Spec.Amf0Peer
/-! # Decoding the AMF0 messages of other producers -/
namespace Verif.Amf0
open Verif.Amf Verif.Spec.Amf0
open Verif.Spec.Amf3 (Sofar lastWins)
open Verif.Amf3 (Match Gives SameTabs frame_sameTabs)

/-- Neither the AMF3 tables nor the AMF0 references change. -/
def SameAll (s s' : St) : Prop := SameTabs s s' ∧ s'.refs0 = s.refs0

theorem frame_sameAll : Frame SameAll where
  refl s := ⟨frame_sameTabs.refl s, rfl⟩
  trans s t u h1 h2 := ⟨frame_sameTabs.trans s t u h1.1 h2.1, h2.2.trans h1.2⟩
  data s d := ⟨frame_sameTabs.data s d, rfl⟩

theorem frame_sameRefs : Amf3.Frame3 (fun s s' : St => s'.refs0 = s.refs0) where
  refl _ := rfl
  trans _ _ _ h1 h2 := h2.trans h1
  data _ _ := rfl
  str _ _ := rfl
  obj _ _ := rfl
  tra _ _ := rfl

/-- The reference table holds the objects sent. -/
def Corr (c : List Complex) (r : List Ref0) : Prop :=
  r.length = c.length ∧ ∀ (i : Nat) (f : List (Bytes × Val)), c[i]? = some (Complex.obj f) → r[i]? = some (Ref0.object f)

/-- The tables hold what has been sent. -/
structure Match0 (t : Known) (s : St) : Prop where
  tabs : Match t.amf3 s
  refs : t.typed = false → Corr t.complex s.refs0

theorem Match0.same {t : Known} {s s' : St} (h : Match0 t s) (hs : SameAll s s') : Match0 t s' :=
  ⟨h.tabs.same hs.1, fun ht => by rw [hs.2]; exact h.refs ht⟩

theorem Match0.fresh (data : Bytes) (e : Bool) (lim : Nat → Nat) : Match0 Known.none ⟨data, e, lim, [], [], [], []⟩ :=
  ⟨⟨rfl, rfl, by simp [Known.none, Sofar.none], rfl, by simp [Known.none, Sofar.none]⟩, fun _ => ⟨rfl, by simp [Known.none]⟩⟩

/-- Reading `b` (with more behind it, or from a reader that is no `bytes.Reader`) yields `a`. -/
def Gives0 {α} (t : Known) (m : GoM St α) (b : Bytes) (a : α) (t' : Known) : Prop :=
  ∀ s rest, Match0 t s → s.Contig → (s.eofOnEmpty = false ∨ rest ≠ []) → s.data = b ++ rest →
    ∃ s', m s = (.ok a, s') ∧ s'.data = rest ∧ (s'.lim = s.lim ∧ s'.eofOnEmpty = s.eofOnEmpty) ∧ Match0 t' s'

namespace Gives0
variable {α β : Type} {t t' t'' : Known}

theorem bind {m : GoM St α} {f : α → GoM St β} {b c : Bytes} {a : α} {y : β}
    (h : Gives0 t m b a t') (h' : Gives0 t' (f a) c y t'') : Gives0 t (m >>= f) (b ++ c) y t'' := by
  intro s rest hm hc he hd
  obtain ⟨s1, h1, h2, h3, h4⟩ := h s (c ++ rest) hm hc (he.imp_right fun hr => by simp [hr]) (by simpa using hd)
  obtain ⟨s2, g1, g2, g3, g4⟩ := h' s1 rest h4 (by unfold St.Contig; rw [h3.1]; exact hc) (by rw [h3.2]; exact he) h2
  exact ⟨s2, by rw [GoM.bind_apply, h1]; exact g1, g2, ⟨g3.1.trans h3.1, g3.2.trans h3.2⟩, g4⟩

theorem pure (a : α) : Gives0 t (Pure.pure a) [] a t := fun s _ hm _ _ hd => ⟨s, rfl, by simpa using hd, ⟨rfl, rfl⟩, hm⟩

theorem map {m : GoM St α} {b : Bytes} {a : α} (g : α → β) (h : Gives0 t m b a t') :
    Gives0 t (m >>= fun x => Pure.pure (g x)) b (g a) t' := by
  have := h.bind (f := fun x => Pure.pure (g x)) (Gives0.pure (g a))
  simpa using this

theorem of_codec {b : Bool} {m : GoM St α} {c : Bytes} {a : α} (h : Codec false b m c a) (hk : Keep SameAll m) :
    Gives0 t m c a t := by
  intro s rest hm hc he hd
  obtain ⟨s', h1, h2, h3, h4⟩ := h.parse s rest hc hd (fun _ h => by rcases he with he | he; · simp [h] at he
                                                                     · exact he)
  have := hk s
  rw [h1] at this
  exact ⟨s', h1, h2, ⟨h4, h3⟩, hm.same this⟩

theorem readByte (b : UInt8) : Gives0 t Amf.readByte [b] b t := by
  intro s rest hm hc he hd
  exact ⟨{ s with data := rest }, Safe.readByte_cons hd, rfl, ⟨rfl, rfl⟩, hm.same (frame_sameAll.data s rest)⟩

theorem pushRef {f : Nat → GoM St β} {c : Bytes} {y : β} (cx : Complex) (v : Ref0) (hv : ∀ fs, cx = .obj fs → v = .object fs)
    (h : ∀ id, (t.typed = false → id = t.complex.length) → Gives0 (t.add cx) (f id) c y t') :
    Gives0 t (Amf0.pushRef v >>= f) c y t' := by
  intro s rest hm hc he hd
  obtain ⟨s', h1, h2, h3, h4⟩ := h s.refs0.length (fun ha => (hm.refs ha).1)
    { s with refs0 := s.refs0 ++ [v] } rest
    ⟨⟨hm.tabs.strs, hm.tabs.len, hm.tabs.vals, hm.tabs.classes, hm.tabs.plain⟩, fun ha => by
      obtain ⟨hl, hr⟩ := hm.refs ha
      refine ⟨by simp [Known.add, hl], fun i fs hi => ?_⟩
      simp only [Known.add] at hi
      by_cases hlt : i < t.complex.length
      · rw [List.getElem?_append_left hlt] at hi
        rw [List.getElem?_append_left (by omega)]
        exact hr i fs hi
      · rw [List.getElem?_append_right (by omega)] at hi
        rw [List.getElem?_append_right (by omega), hl]
        rcases hz : i - t.complex.length with _ | k
        · rw [hz] at hi
          simp at hi ⊢
          exact hv fs hi
        · rw [hz] at hi
          simp at hi⟩ hc he hd
  exact ⟨s', h1, h2, h3, h4⟩

theorem setRef (id : Nat) (o : Option Nat) (kvs : List (Bytes × Val)) (ho : t.typed = false → o = some id) :
    Gives0 t (Amf0.setRef id kvs) [] () (t.put o kvs) := by
  intro s rest hm hc he hd
  refine ⟨{ s with refs0 := s.refs0.set id (.object kvs) }, rfl, hd, ⟨rfl, rfl⟩, ?_⟩
  have htabs : Match t.amf3 { s with refs0 := s.refs0.set id (.object kvs) } :=
    ⟨hm.tabs.strs, hm.tabs.len, hm.tabs.vals, hm.tabs.classes, hm.tabs.plain⟩
  refine ⟨by cases o <;> exact htabs, fun ha => ?_⟩
  have hty : t.typed = false := by cases o <;> exact ha
  obtain ⟨hl, hr⟩ := hm.refs hty
  rw [ho hty]
  refine ⟨by simp [Known.put, hl], fun i fs hi => ?_⟩
  simp only [Known.put, List.getElem?_set] at hi ⊢
  split at hi
  · rename_i hid
    subst hid
    rw [if_pos rfl]
    split at hi
    · rw [if_pos (by omega)]
      simp only [Option.some.injEq, Complex.obj.injEq] at hi
      rw [hi]
    · simp at hi
  · rename_i hid
    rw [if_neg hid]
    exact hr i fs hi

/-- Once a typed object was sent, further references do not matter. -/
theorem pushTyped {f : Nat → GoM St β} {c : Bytes} {y : β} (v : Ref0) (ht : t.typed = true)
    (h : ∀ id, Gives0 t (f id) c y t') : Gives0 t (Amf0.pushRef v >>= f) c y t' := by
  intro s rest hm hc he hd
  obtain ⟨s', h1, h2, h3, h4⟩ := h s.refs0.length { s with refs0 := s.refs0 ++ [v] } rest
    ⟨⟨hm.tabs.strs, hm.tabs.len, hm.tabs.vals, hm.tabs.classes, hm.tabs.plain⟩, fun h => by simp [ht] at h⟩ hc he hd
  exact ⟨s', h1, h2, h3, h4⟩

/-- From the moment a typed object was sent nothing is known about the references. -/
theorem forget {m : GoM St α} {b : Bytes} {a : α} (h : Gives0 { t with typed := true } m b a t') : Gives0 t m b a t' :=
  fun s rest hm hc he hd => h s rest ⟨hm.tabs, fun h => by simp at h⟩ hc he hd
end Gives0

variable {t : Known}

theorem gives0_marker (fuel : Nat) {m : UInt8} {c : Bytes} {y : Val} {t' : Known}
    (h : Gives0 t (branch fuel m) c y t') : Gives0 t (dec (fuel + 1)) (m :: c) y t' := by
  rw [dec_succ]
  exact Gives0.bind (b := [m]) (Gives0.readByte m) h
theorem gives0_string (s : Bytes) (h : s.length < 65536) : Gives0 t decodeString (utf8 s) s t :=
  Gives0.of_codec (codec_string s (by omega)) (keep_decodeString frame_sameAll)

theorem gives0_longString (s : Bytes) (h : s.length < 2 ^ 32) : Gives0 t decodeLongString (utf8Long s) s t :=
  Gives0.of_codec (codec_longString s h) (keep_decodeLongString frame_sameAll)

theorem gives0_u32 (n : Nat) (h : n < 2 ^ 32) : Gives0 t readU32 (be32 (UInt32.ofNat n)) n t :=
  Gives0.of_codec (codec_u32 n h) ((Keep.readFull frame_sameAll _).bind frame_sameAll fun _ => Keep.pure frame_sameAll _)

theorem gives0_number (f : UInt64) : Gives0 t (readFull 8 >>= fun b => pure (UInt64.ofNat (beNat b))) (be64 f) f t := by
  refine Gives0.of_codec (b := false) ?_ ((Keep.readFull frame_sameAll _).bind frame_sameAll fun _ => Keep.pure frame_sameAll _)
  have := (Codec.readFull (r := false) (be64 f) (be64_length f) (by omega)).map (fun b => UInt64.ofNat (beNat b))
  rwa [beNat_be64] at this

theorem gives0_readBytes (b : Bytes) : Gives0 t (readBytes b.length) b b t :=
  Gives0.of_codec (Codec.readBytes b) (Keep.readBytes frame_sameAll _)

theorem gives0_next (b : UInt8) : Gives0 t (nextByteMustBe b) [b] () t := by
  unfold nextByteMustBe
  refine Gives0.bind (b := [b]) (c := []) (Gives0.readByte b) ?_
  simpa using Gives0.pure ()

theorem p0wireF_pos (fs : List (Bytes × P0)) : 2 < (p0wireF fs).length := by
  induction fs with
  | nil => simp [p0wireF]
  | cons e r ih => obtain ⟨k, v⟩ := e; simp [p0wireF]; omega

theorem put_typed (t : Known) (o : Option Nat) (m : List (Bytes × Val)) : (t.put o m).typed = t.typed := by
  cases o <;> rfl

mutual
/-- That a typed object was sent is not forgotten. -/
theorem den_typed : (p : P0) → (t : Known) → (v : Val) → (t' : Known) → p.den t = some (v, t') → t.typed = true → t'.typed = true
  | .number _, _, _, _, h, ht | .bool _, _, _, _, h, ht | .str _, _, _, _, h, ht | .longStr _, _, _, _, h, ht
  | .xml _, _, _, _, h, ht | .null, _, _, _, h, ht | .undefined, _, _, _, h, ht | .unsupported, _, _, _, h, ht
  | .date _ _, _, _, _, h, ht => by
    simp only [P0.den, Option.some.injEq, Prod.mk.injEq] at h
    rw [← h.2]; exact ht
  | .obj fs, t, v, t', h, ht => by
    simp only [P0.den] at h
    rcases h1 : p0denF (t.add (.obj [])) (some t.complex.length) [] fs with _ | ⟨l, t1⟩ <;> rw [h1] at h <;> simp at h
    rw [← h.2]; exact denF_typed fs _ _ _ _ _ h1 ht
  | .ecma _ fs, t, v, t', h, ht => by
    simp only [P0.den] at h
    rcases h1 : p0denF (t.add (.obj [])) (some t.complex.length) [] fs with _ | ⟨l, t1⟩ <;> rw [h1] at h <;> simp at h
    rw [← h.2]; exact denF_typed fs _ _ _ _ _ h1 ht
  | .typed _ fs, t, v, t', h, ht => by
    simp only [P0.den] at h
    rcases h1 : p0denF { t.add .other with typed := true } .none [] fs with _ | ⟨l, t1⟩ <;> rw [h1] at h <;> simp at h
    rw [← h.2]; exact denF_typed fs _ _ _ _ _ h1 rfl
  | .strict xs, t, v, t', h, ht => by
    simp only [P0.den] at h
    rcases h1 : p0denL (t.add .other) xs with _ | ⟨l, t1⟩ <;> rw [h1] at h <;> simp at h
    rw [← h.2]; exact denL_typed xs _ _ _ h1 ht
  | .amf3 v, t, x, t', h, ht => by
    simp only [P0.den] at h
    rcases h1 : v.den t.amf3 with _ | ⟨l, t1⟩ <;> rw [h1] at h <;> simp at h
    rw [← h.2]; exact ht
  | .ref n, t, x, t', h, ht => by
    simp [P0.den, ht] at h
theorem denL_typed : (ps : List P0) → (t : Known) → (vs : List Val) → (t' : Known) → p0denL t ps = some (vs, t') →
    t.typed = true → t'.typed = true
  | [], t, vs, t', h, ht => by
    simp only [p0denL, Option.some.injEq, Prod.mk.injEq] at h
    rw [← h.2]; exact ht
  | p :: ps, t, vs, t', h, ht => by
    simp only [p0denL] at h
    rcases h1 : p.den t with _ | ⟨x, t1⟩ <;> rw [h1] at h <;> simp only [reduceCtorEq] at h
    rcases h2 : p0denL t1 ps with _ | ⟨xs, t2⟩ <;> rw [h2] at h <;> simp at h
    rw [← h.2]; exact denL_typed ps _ _ _ h2 (den_typed p _ _ _ h1 ht)
theorem denF_typed : (ps : List (Bytes × P0)) → (t : Known) → (o : Option Nat) → (l : List (Bytes × Val)) → (vs : List (Bytes × Val)) →
    (t' : Known) → p0denF t o l ps = some (vs, t') → t.typed = true → t'.typed = true
  | [], t, o, l, vs, t', h, ht => by
    simp only [p0denF, Option.some.injEq, Prod.mk.injEq] at h
    rw [← h.2]; exact ht
  | (k, p) :: ps, t, o, l, vs, t', h, ht => by
    simp only [p0denF] at h
    rcases h1 : p.den t with _ | ⟨x, t1⟩ <;> rw [h1] at h <;> simp only [reduceCtorEq] at h
    exact denF_typed ps _ _ _ _ _ h (by rw [put_typed]; exact den_typed p _ _ _ h1 ht)
end

mutual
theorem gives0_val : (p : P0) → p.Fits → (t : Known) → (v : Val) → (t' : Known) → p.den t = some (v, t') →
    (fuel : Nat) → p.wire.length ≤ fuel → Gives0 t (dec fuel) p.wire v t'
  | p, _, _, _, _, _, 0, hf => absurd hf (by cases p <;> simp [P0.wire])
  | .number f, _, t, v, t', h, fuel + 1, _ => by
    simp only [P0.den, Option.some.injEq, Prod.mk.injEq] at h
    obtain ⟨rfl, rfl⟩ := h
    refine gives0_marker fuel (m := 0) ?_
    have := (gives0_number (t := t) f).map Val.f64
    rwa [GoM.bind_assoc'] at this
  | .bool b, hp, t, v, t', h, fuel + 1, _ => by
    simp only [P0.den, Option.some.injEq, Prod.mk.injEq] at h
    obtain ⟨rfl, rfl⟩ := h
    refine gives0_marker fuel (m := 1) ?_
    have := (Gives0.readByte (t := t) b).map fun flag => Val.bool (flag == 1)
    simp only [P0.Fits] at hp
    rcases hp with rfl | rfl <;> exact this
  | .str s, hp, t, v, t', h, fuel + 1, _ => by
    simp only [P0.den, Option.some.injEq, Prod.mk.injEq] at h
    obtain ⟨rfl, rfl⟩ := h
    exact gives0_marker fuel (m := 2) ((gives0_string s (by simpa [P0.Fits] using hp)).map Val.str)
  | .longStr s, hp, t, v, t', h, fuel + 1, _ => by
    simp only [P0.den, Option.some.injEq, Prod.mk.injEq] at h
    obtain ⟨rfl, rfl⟩ := h
    exact gives0_marker fuel (m := 12) ((gives0_longString s (by simpa [P0.Fits] using hp)).map Val.str)
  | .xml s, hp, t, v, t', h, fuel + 1, _ => by
    simp only [P0.den, Option.some.injEq, Prod.mk.injEq] at h
    obtain ⟨rfl, rfl⟩ := h
    exact gives0_marker fuel (m := 15) ((gives0_longString s (by simpa [P0.Fits] using hp)).map Val.str)
  | .null, _, t, v, t', h, fuel + 1, _ => by
    simp only [P0.den, Option.some.injEq, Prod.mk.injEq] at h
    obtain ⟨rfl, rfl⟩ := h
    exact gives0_marker fuel (m := 5) (Gives0.pure _)
  | .undefined, _, t, v, t', h, fuel + 1, _ => by
    simp only [P0.den, Option.some.injEq, Prod.mk.injEq] at h
    obtain ⟨rfl, rfl⟩ := h
    exact gives0_marker fuel (m := 6) (Gives0.pure _)
  | .unsupported, _, t, v, t', h, fuel + 1, _ => by
    simp only [P0.den, Option.some.injEq, Prod.mk.injEq] at h
    obtain ⟨rfl, rfl⟩ := h
    exact gives0_marker fuel (m := 13) (Gives0.pure _)
  | .date ms z, _, t, v, t', h, fuel + 1, _ => by
    simp only [P0.den, Option.some.injEq, Prod.mk.injEq] at h
    obtain ⟨rfl, rfl⟩ := h
    refine gives0_marker fuel (m := 11) ?_
    have h1 : Gives0 t decodeDate (be64 ms ++ be16 z) ms t := by
      have := Gives0.bind (gives0_number (t := t) ms) (f := fun f => readBytes 2 >>= fun _ => Pure.pure f)
        ((gives0_readBytes (be16 z)).map fun _ => ms)
      rwa [GoM.bind_assoc'] at this
    exact h1.map Val.f64
  | .obj fs, hp, t, v, t', h, fuel + 1, hf => by
    simp only [P0.den] at h
    rcases h1 : p0denF (t.add (.obj [])) (some t.complex.length) [] fs with _ | ⟨l, t1⟩ <;> rw [h1] at h <;> simp only [reduceCtorEq] at h
    simp only [Option.some.injEq, Prod.mk.injEq] at h
    obtain ⟨rfl, rfl⟩ := h
    simp only [P0.wire, List.length_cons] at hf
    exact gives0_marker fuel (m := 3) ((gives0_object fs (by simpa [P0.Fits] using hp) t l t1 h1 fuel (by omega)).map Val.obj)
  | .ecma n fs, hp, t, v, t', h, fuel + 1, hf => by
    simp only [P0.den] at h
    rcases h1 : p0denF (t.add (.obj [])) (some t.complex.length) [] fs with _ | ⟨l, t1⟩ <;> rw [h1] at h <;> simp only [reduceCtorEq] at h
    simp only [Option.some.injEq, Prod.mk.injEq] at h
    obtain ⟨rfl, rfl⟩ := h
    simp only [P0.wire, List.length_cons, List.length_append] at hf
    refine gives0_marker fuel (m := 8) ?_
    have hcount : Gives0 t readU32 (be32 n) n.toNat t := by
      have := gives0_u32 (t := t) n.toNat n.toNat_lt
      rwa [UInt32.ofNat_toNat] at this
    exact (Gives0.bind hcount (f := fun _ => decodeObject (dec fuel) fuel)
      (gives0_object fs (by simpa [P0.Fits] using hp) t l t1 h1 fuel (by omega))).map Val.obj
  | .typed name fs, hp, t, v, t', h, fuel + 1, hf => by
    simp only [P0.den] at h
    rcases h1 : p0denF { t.add .other with typed := true } .none [] fs with _ | ⟨l, t1⟩ <;> rw [h1] at h <;> simp only [reduceCtorEq] at h
    simp only [Option.some.injEq, Prod.mk.injEq] at h
    obtain ⟨rfl, rfl⟩ := h
    simp only [P0.wire, List.length_cons, List.length_append] at hf
    simp only [P0.Fits] at hp
    refine gives0_marker fuel (m := 16) ?_
    have hO : Gives0 { t.add .other with typed := true } (decodeObject (dec fuel) fuel) (p0wireF fs) l t1 :=
      Gives0.pushTyped (.object []) rfl fun id => gives0_fields id fs hp.2 _ .none [] l t1 (fun h => by simp at h) h1 fuel (by omega)
        fuel (by omega)
    have h2 := Gives0.bind (gives0_string (t := { t.add .other with typed := true }) name hp.1)
      (f := fun t => decodeObject (dec fuel) fuel >>= fun o => Pure.pure (t, o)) (hO.map fun o => (name, o))
    have h3 : Gives0 t (decodeTypedObject (dec fuel) fuel) (utf8 name ++ p0wireF fs) (name, l) t1 :=
      Gives0.pushRef .other .zeroTyped (fun fs h => by simp at h) fun _ _ => Gives0.forget h2
    exact h3.map fun p => Val.typed p.1 p.2
  | .strict xs, hp, t, v, t', h, fuel + 1, hf => by
    simp only [P0.den] at h
    rcases h1 : p0denL (t.add .other) xs with _ | ⟨l, t1⟩ <;> rw [h1] at h <;> simp only [reduceCtorEq] at h
    simp only [Option.some.injEq, Prod.mk.injEq] at h
    obtain ⟨rfl, rfl⟩ := h
    simp only [P0.wire, List.length_cons, List.length_append] at hf
    simp only [P0.Fits] at hp
    refine gives0_marker fuel (m := 10) ?_
    have hL := gives0_vals xs hp.2 _ l t1 h1 fuel (by omega) []
    have h2 := Gives0.bind (gives0_u32 (t := t) xs.length hp.1) (f := fun n => pushRef .nilArray >>= fun _ => arrLoop (dec fuel) n [])
      (Gives0.pushRef .other .nilArray (fun fs h => by simp at h) fun _ _ => hL)
    exact Gives0.map Val.arr h2
  | .amf3 v, hp, t, x, t', h, fuel + 1, hf => by
    simp only [P0.den] at h
    rcases h1 : v.den t.amf3 with _ | ⟨l, t1⟩ <;> rw [h1] at h <;> simp only [reduceCtorEq] at h
    simp only [Option.some.injEq, Prod.mk.injEq] at h
    obtain ⟨rfl, rfl⟩ := h
    refine gives0_marker fuel (m := 17) ?_
    intro s rest hm hc he hd
    obtain ⟨s', g1, g2, g3, g4⟩ := Amf3.gives_val noHandlers v (by simpa [P0.Fits] using hp) t.amf3 l t1 h1 (s.data.length + 1)
      (by rw [hd]; simp; omega) s rest hm.tabs hc hd
    refine ⟨s', g1, g2, g3, g4, fun ht => ?_⟩
    have := Amf3.keep_dec frame_sameRefs noHandlers (by simp [noHandlers]) (s.data.length + 1) s
    rw [g1] at this
    simp only at this
    rw [this]
    exact hm.refs ht
  | .ref n, _, t, x, t', h, fuel + 1, _ => by
    simp only [P0.den] at h
    split at h
    · simp at h
    rename_i hty
    simp only [Bool.not_eq_true] at hty
    rcases h1 : t.complex[n.toNat]? with _ | c <;> rw [h1] at h
    · simp at h
    cases c with
    | other => simp at h
    | obj fs =>
      simp only [Option.some.injEq, Prod.mk.injEq] at h
      obtain ⟨rfl, rfl⟩ := h
      refine gives0_marker fuel (m := 7) ?_
      intro s rest hm hc he hd
      obtain ⟨hl, hr⟩ := hm.refs hty
      have he := hr _ _ h1
      have hlt : n.toNat < s.refs0.length := (List.getElem?_eq_some_iff.mp he).1
      refine ⟨{ s with data := rest }, ?_, rfl, ⟨rfl, rfl⟩, hm.same (frame_sameAll.data s rest)⟩
      have hu : Amf0.readU16 s = (.ok n.toNat, { s with data := rest }) := by
        simp only [Amf0.readU16, GoM.bind_apply, readFull]
        rw [if_neg (by simp [hd, be16]), if_neg (by simp [hd, be16])]
        have : beNat (be16 n) = n.toNat := by
          have := beNat_be16 n.toNat n.toNat_lt
          rwa [UInt16.ofNat_toNat] at this
        have ht : List.take 2 s.data = be16 n := by rw [hd]; rfl
        have hdr : List.drop 2 s.data = rest := by rw [hd]; rfl
        simp only [ht, hdr, this, GoM.pure_apply]
      have hng : ¬ n.toNat > s.refs0.length := by omega
      have hi : goIndex s.refs0 (n.toNat : Int) = .ok (.object fs) := by simp [goIndex, he]
      show Amf0.decodeReference s = _
      simp only [Amf0.decodeReference, GoM.bind_apply, hu, GoM.get_apply, if_neg hng, hi]
      simp
theorem gives0_object : (ps : List (Bytes × P0)) → P0FitsF ps → (t : Known) → (vs : List (Bytes × Val)) → (t' : Known) →
    p0denF (t.add (.obj [])) (some t.complex.length) [] ps = some (vs, t') → (fuel : Nat) → (p0wireF ps).length ≤ fuel →
    Gives0 t (decodeObject (dec fuel) fuel) (p0wireF ps) vs t'
  | ps, hp, t, vs, t', h, fuel, hf =>
    Gives0.pushRef (.obj []) (.object []) (fun fs h => by cases h; rfl) fun id hid =>
      gives0_fields id ps hp _ (some t.complex.length) [] vs t' (fun ht => by rw [hid ht]) h fuel hf fuel hf
theorem gives0_vals : (ps : List P0) → P0FitsL ps → (t : Known) → (vs : List Val) → (t' : Known) →
    p0denL t ps = some (vs, t') → (fuel : Nat) → (p0wireL ps).length ≤ fuel → (acc : List Val) →
    Gives0 t (arrLoop (dec fuel) ps.length acc) (p0wireL ps) (acc ++ vs) t'
  | [], _, t, vs, t', h, _, _, acc => by
    simp only [p0denL, Option.some.injEq, Prod.mk.injEq] at h
    obtain ⟨rfl, rfl⟩ := h
    simpa [arrLoop, p0wireL] using Gives0.pure (t := t) acc
  | p :: ps, hp, t, vs, t', h, fuel, hf, acc => by
    simp only [p0denL] at h
    rcases h1 : p.den t with _ | ⟨x, t1⟩
    · simp [h1] at h
    rw [h1] at h
    simp only at h
    rcases h2 : p0denL t1 ps with _ | ⟨xs, t2⟩
    · simp [h2] at h
    rw [h2] at h
    simp only [Option.some.injEq, Prod.mk.injEq] at h
    obtain ⟨rfl, rfl⟩ := h
    simp only [P0FitsL] at hp
    simp only [p0wireL, List.length_append] at hf
    have := Gives0.bind (gives0_val p hp.1 t x t1 h1 fuel (by omega)) (f := fun v => arrLoop (dec fuel) ps.length (acc ++ [v]))
      (gives0_vals ps hp.2 t1 xs t2 h2 fuel (by omega) (acc ++ [x]))
    simpa [arrLoop, p0wireL] using this
theorem gives0_fields (id : Nat) : (ps : List (Bytes × P0)) → P0FitsF ps → (t : Known) → (o : Option Nat) → (l : List (Bytes × Val)) →
    (vs : List (Bytes × Val)) → (t' : Known) → (t.typed = false → o = some id) → p0denF t o l ps = some (vs, t') →
    (fuel : Nat) → (p0wireF ps).length ≤ fuel → (n : Nat) → (p0wireF ps).length ≤ n →
    Gives0 t (objLoop (dec fuel) id n (lastWins l)) (p0wireF ps) vs t'
  | [], _, t, o, l, vs, t', _, h, fuel, _, n, hn => by
    simp only [p0denF, Option.some.injEq, Prod.mk.injEq] at h
    obtain ⟨rfl, rfl⟩ := h
    simp only [p0wireF, List.length_cons] at hn
    obtain ⟨n', rfl⟩ : ∃ n', n = n' + 1 := ⟨n - 1, by omega⟩
    have := Gives0.bind (gives0_string (t := t) [] (by simp)) (f := fun key => if key = [] then
        (nextByteMustBe 9 >>= fun _ => pure (lastWins l)) else (dec fuel >>= fun v => setRef id (mapSet (lastWins l) key v) >>= fun _ =>
          objLoop (dec fuel) id n' (mapSet (lastWins l) key v))) (c := [9]) (y := lastWins l) (t'' := t)
      (by simpa using (gives0_next (t := t) 9).map fun _ => lastWins l)
    exact this
  | (k, p) :: ps, hp, t, o, l, vs, t', ho, h, fuel, hf, n, hn => by
    simp only [p0denF] at h
    rcases h1 : p.den t with _ | ⟨x, t1⟩ <;> rw [h1] at h <;> simp only [reduceCtorEq] at h
    simp only [P0FitsF] at hp
    simp only [p0wireF, List.length_append] at hf hn
    have hpos := p0wireF_pos ps
    have hu : 2 ≤ (utf8 k).length := by simp [utf8, be16_length]
    obtain ⟨n', rfl⟩ : ∃ n', n = n' + 1 := ⟨n - 1, by omega⟩
    have ho1 : t1.typed = false → o = some id := fun h3 => ho (by
      cases h4 : t.typed with
      | false => rfl
      | true => rw [den_typed p t x t1 h1 h4] at h3; simp at h3)
    have hV := gives0_val p hp.2.2.1 t x t1 h1 fuel (by omega)
    have hA := gives0_fields id ps hp.2.2.2 _ o _ vs t' (by rw [put_typed]; exact ho1) h fuel (by omega) n' (by omega)
    have hset : mapSet (lastWins l) k x = lastWins (l ++ [(k, x)]) := by
      rw [← setAll_nil, ← setAll_nil, setAll, setAll, List.foldl_append]; rfl
    have hloop := Gives0.bind hV (f := fun v => setRef id (mapSet (lastWins l) k v) >>= fun _ => objLoop (dec fuel) id n' (mapSet (lastWins l) k v))
      (Gives0.bind (b := []) (by rw [hset]; exact Gives0.setRef id o _ ho1) (by rw [hset]; exact hA))
    have := Gives0.bind (gives0_string (t := t) k hp.2.1) (f := fun key => if key = [] then
        (nextByteMustBe 9 >>= fun _ => pure (lastWins l)) else (dec fuel >>= fun v => setRef id (mapSet (lastWins l) key v) >>= fun _ =>
          objLoop (dec fuel) id n' (mapSet (lastWins l) key v))) (by rw [if_neg hp.1]; exact hloop)
    have h3 : Gives0 t (objLoop (dec fuel) id (n' + 1) (lastWins l)) _ _ _ := this
    simpa [p0wireF] using h3
end

end Verif.Amf0
