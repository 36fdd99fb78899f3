import Verif.Lemmas.AmfTakes
import Verif.Lemmas.AmfAccept0
import Verif.Lemmas.Amf0Peer
/-! # What the AMF0 decoder has to accept -/
namespace Verif.Amf0
open Verif.Amf Verif.Spec.Amf0
open Verif.Amf3 (Takes Holds)
open Verif.Spec.Amf3 (Seen Read lastWins)

theorem Holds0.same {t : Seen0} {s s' : St} (h : Holds0 t s) (hs : SameAll s s') : Holds0 t s' :=
  ⟨h.amf3.same hs.1, by rw [hs.2]; exact h.len, by rw [hs.2]; exact h.objs, by rw [hs.2]; exact h.arrs⟩

/-- Reading `b` (with more behind it, or from a reader that is no `bytes.Reader`) yields `a`. -/
def Takes0 {α} (t : Seen0) (m : GoM St α) (b : Bytes) (a : α) (t' : Seen0) : Prop :=
  Ext t t' ∧ ∀ s rest, Holds0 t s → s.Contig → (s.eofOnEmpty = false ∨ rest ≠ []) → s.data = b ++ rest →
    ∃ s', m s = (.ok a, s') ∧ s'.data = rest ∧ (s'.lim = s.lim ∧ s'.eofOnEmpty = s.eofOnEmpty) ∧ Holds0 t' s'

namespace Takes0
variable {α β : Type} {t t' t'' : Seen0}

theorem bind {m : GoM St α} {f : α → GoM St β} {b c : Bytes} {a : α} {y : β}
    (h : Takes0 t m b a t') (h' : Takes0 t' (f a) c y t'') : Takes0 t (m >>= f) (b ++ c) y t'' := by
  refine ⟨h.1.trans h'.1, ?_⟩
  intro s rest hm hc he hd
  obtain ⟨s1, h1, h2, h3, h4⟩ := h.2 s (c ++ rest) hm hc (he.imp_right fun hr => by simp [hr]) (by simpa using hd)
  obtain ⟨s2, g1, g2, g3, g4⟩ := h'.2 s1 rest h4 (by unfold St.Contig; rw [h3.1]; exact hc) (by rw [h3.2]; exact he) h2
  exact ⟨s2, by rw [GoM.bind_apply, h1]; exact g1, g2, ⟨g3.1.trans h3.1, g3.2.trans h3.2⟩, g4⟩

theorem pure (a : α) : Takes0 t (Pure.pure a) [] a t :=
  ⟨.refl t, fun s _ hm _ _ hd => ⟨s, rfl, by simpa using hd, ⟨rfl, rfl⟩, hm⟩⟩

theorem step {m : GoM St α} {f : α → GoM St β} {c : Bytes} {a : α} {y : β}
    (h : Takes0 t m [] a t') (h' : Takes0 t' (f a) c y t'') : Takes0 t (m >>= f) c y t'' := by
  have := h.bind h'
  rwa [List.nil_append] at this

theorem last {m : GoM St α} {f : α → GoM St β} {b : Bytes} {a : α} {y : β}
    (h : Takes0 t m b a t') (h' : Takes0 t' (f a) [] y t'') : Takes0 t (m >>= f) b y t'' := by
  have := h.bind h'
  rwa [List.append_nil] at this

theorem of_codec {b : Bool} {m : GoM St α} {c : Bytes} {a : α} (h : Codec false b m c a) (hk : Keep SameAll m) :
    Takes0 t m c a t := by
  refine ⟨.refl t, ?_⟩
  intro s rest hm hc he hd
  obtain ⟨s', h1, h2, h3, h4⟩ := h.parse s rest hc hd (fun _ h => by rcases he with he | he; · simp [h] at he
                                                                     · exact he)
  have := hk s
  rw [h1] at this
  exact ⟨s', h1, h2, ⟨h4, h3⟩, hm.same this⟩

theorem readByte (b : UInt8) : Takes0 t Amf.readByte [b] b t := by
  refine ⟨.refl t, ?_⟩
  intro s rest hm hc he hd
  exact ⟨{ s with data := rest }, Safe.readByte_cons hd, rfl, ⟨rfl, rfl⟩, hm.same (frame_sameAll.data s rest)⟩

/-- A step that only changes the references. -/
theorem of_sound {m : GoM St α} {Q : Bytes → α → Seen0 → Prop} {a : α} (h : Sound0 t m Q)
    (hx : Ext t t') (hQ : ∀ b x u, Q b x u → x = a ∧ u = t')
    (hr : ∀ s : St, Holds0 t s → ∃ x s', m s = (.ok x, s') ∧ s'.data = s.data ∧ s'.lim = s.lim ∧ s'.eofOnEmpty = s.eofOnEmpty) : Takes0 t m [] a t' := by
  refine ⟨hx, ?_⟩
  intro s rest hm hc he hd
  obtain ⟨x, s', h1, h2, h3, h4⟩ := hr s hm
  obtain ⟨b, u, e, q, hs, _⟩ := h s x s' hm h1
  obtain ⟨rfl, rfl⟩ := hQ _ _ _ q
  exact ⟨s', h1, by rw [h2]; exact hd, ⟨h3, h4⟩, hs⟩
end Takes0

variable {t : Seen0}

theorem takes0_string (s : Bytes) (h : s.length < 65536) : Takes0 t decodeString (utf8 s) s t :=
  Takes0.of_codec (codec_string s (by omega)) (keep_decodeString frame_sameAll)

theorem takes0_longString (s : Bytes) (h : s.length < 2 ^ 32) : Takes0 t decodeLongString (utf8Long s) s t :=
  Takes0.of_codec (codec_longString s h) (keep_decodeLongString frame_sameAll)

theorem takes0_u32 (n : Nat) (h : n < 2 ^ 32) : Takes0 t readU32 (be32 (UInt32.ofNat n)) n t :=
  Takes0.of_codec (codec_u32 n h) ((Keep.readFull frame_sameAll _).bind frame_sameAll fun _ => Keep.pure frame_sameAll _)

theorem takes0_full (f : UInt64) : Takes0 t (readFull 8) (be64 f) (be64 f) t :=
  Takes0.of_codec (b := false) (Codec.readFull (r := false) (be64 f) (be64_length f) (by omega)) (Keep.readFull frame_sameAll _)

theorem takes0_readBytes (b : Bytes) : Takes0 t (readBytes b.length) b b t :=
  Takes0.of_codec (Codec.readBytes b) (Keep.readBytes frame_sameAll _)

theorem takes0_next (b : UInt8) : Takes0 t (nextByteMustBe b) [b] () t := by
  unfold nextByteMustBe
  refine (Takes0.readByte b).last ?_
  simpa using Takes0.pure ()

theorem takes0_push (o : Bool) : Takes0 t (pushRef (if o then .object [] else .nilArray)) [] (t.complex.length + t.typed) (t.add o) :=
  Takes0.of_sound (sound0_pushRef o) ⟨List.prefix_append _ _, Nat.le_refl _⟩ (fun b x u h => ⟨h.2.1, h.2.2⟩)
    fun s _ => ⟨_, _, rfl, rfl, rfl, rfl⟩

theorem takes0_set (id : Nat) (kvs : List (Bytes × Val)) (h : t.typed = 0 → t.complex[id]? = some true) : Takes0 t (setRef id kvs) [] () t :=
  Takes0.of_sound (sound0_setRef id kvs h) (.refl t) (fun b x u h => ⟨rfl, h.2⟩) fun s _ => ⟨_, _, rfl, rfl, rfl, rfl⟩

theorem takes0_amf3 {b v u} (h : Read true t.amf3 b v u) : Takes0 t (Amf3.decode noHandlers) b v { t with amf3 := u } := by
  refine ⟨.refl _, ?_⟩
  intro s rest hm hc he hd
  obtain ⟨s', h1, h2, h3, h4⟩ := Amf3.takes_decode noHandlers h s rest hm.amf3 hc hd
  obtain ⟨_, _, _, _, _, hr⟩ := Amf3.sound_decode noHandlers t.amf3 s v s' hm.amf3 h1
  exact ⟨s', h1, h2, h3, ⟨h4, by rw [hr]; exact hm.len, by rw [hr]; exact hm.objs, by rw [hr]; exact hm.arrs⟩⟩

variable {d : GoM St Val} {F : Nat}

/-- The decoder of the parts takes everything shorter than `F`. -/
def Reads0 (F : Nat) (d : GoM St Val) : Prop := ∀ t b v t', b.length < F → Read0 true t b v t' → Takes0 t d b v t'

theorem takes0_arr (hd : Reads0 F d) {b vs t'} (h : ReadAll0 true t b vs t') (hb : b.length < F) :
    ∀ acc, Takes0 t (arrLoop d vs.length acc) b (acc ++ vs) t' := by
  induction vs generalizing t b with
  | nil =>
    intro acc
    cases h
    rw [List.append_nil]
    exact .pure _
  | cons v vs ih =>
    intro acc
    cases h with
    | cons h1 h2 =>
      rw [List.length_append] at hb
      refine (hd _ _ _ _ (by omega) h1).bind ?_
      have := ih h2 (by omega) (acc ++ [v])
      rwa [List.append_assoc] at this

theorem takes0_fields (hd : Reads0 F d) (id : Nat) (l : List (Bytes × Val)) : ∀ {t b t'} (acc : List (Bytes × Val)),
    ReadFields true t b l t' → b.length < F → (t.typed = 0 → t.complex[id]? = some true) → ∀ n, b.length < n →
    Takes0 t (objLoop d id n acc) b (setAll acc l) t' := by
  induction l with
  | nil =>
    intro t b t' acc h hb hid n hn
    obtain ⟨n, rfl⟩ : ∃ k, n = k + 1 := ⟨n - 1, by omega⟩
    cases h
    rw [objLoop]
    refine (takes0_string [] (by decide)).bind (c := [9]) ?_
    rw [if_pos rfl]
    exact (takes0_next 9).last (.pure _)
  | cons e l ih =>
    intro t b t' acc h hb hid n hn
    obtain ⟨n, rfl⟩ : ∃ k, n = k + 1 := ⟨n - 1, by omega⟩
    cases h with
    | @more _ k c v t1 d' _ _ hk hl hv hr =>
      have hu : (utf8 k).length = 2 + k.length := by simp [utf8, be16_length]
      rw [List.length_append, List.length_append, hu] at hb hn
      rw [objLoop]
      refine (takes0_string k hl).bind ?_
      rw [if_neg hk]
      have hV := hd _ _ _ _ (by omega) hv
      have hid1 := ext_obj hid hV.1
      refine hV.bind ?_
      refine (takes0_set id _ hid1).step ?_
      exact ih (mapSet acc k v) hr (by omega) hid1 n (by omega)

theorem takes0_object (hd : Reads0 F d) {b l t'} (h : ReadFields true (t.add true) b l t') (hb : b.length < F) (n : Nat) (hn : b.length < n) :
    Takes0 t (decodeObject d n) b (lastWins l) t' := by
  refine (takes0_push true).step ?_
  rw [← setAll_nil]
  refine takes0_fields hd _ l [] h hb ?_ n hn
  intro h0
  simp only [Seen0.add] at h0 ⊢
  simp [h0]

theorem fields_pos {b l t'} (h : ReadFields true t b l t') : 0 < b.length := by
  cases h with
  | done => decide
  | more => simp [utf8, be16_length]; omega

theorem takes0_ref {n : UInt16} (h0 : t.typed = 0) (hx : t.complex[n.toNat]? = some true) : Takes0 t decodeReference (be16 n) (.shared n.toNat) t := by
  refine ⟨.refl t, ?_⟩
  intro s rest hm hc he hd
  obtain ⟨k, hk⟩ := hm.objs h0 _ hx
  have hlt : n.toNat < s.refs0.length := (List.getElem?_eq_some_iff.mp hk).1
  refine ⟨{ s with data := rest }, ?_, rfl, ⟨rfl, rfl⟩, hm.same (frame_sameAll.data s rest)⟩
  have hu : readU16 s = (.ok n.toNat, { s with data := rest }) := by
    simp only [readU16, GoM.bind_apply, readFull]
    rw [if_neg (by simp [hd, be16]), if_neg (by simp [hd, be16])]
    have : beNat (be16 n) = n.toNat := by
      have := beNat_be16 n.toNat n.toNat_lt
      rwa [UInt16.ofNat_toNat] at this
    have ht : List.take 2 s.data = be16 n := by rw [hd]; rfl
    have hdr : List.drop 2 s.data = rest := by rw [hd]; rfl
    simp only [ht, hdr, this, GoM.pure_apply]
  have hng : ¬ n.toNat > s.refs0.length := by omega
  have hi : goIndex s.refs0 (n.toNat : Int) = .ok (.object k) := by simp [goIndex, hk]
  simp only [decodeReference, GoM.bind_apply, hu, GoM.get_apply, if_neg hng, hi]
  simp

theorem takes0_dec (fuel : Nat) : Reads0 fuel (dec fuel) := by
  induction fuel with
  | zero => intro t b v t' hb; omega
  | succ fuel ih =>
    intro t b v t' hb h
    rw [dec_succ]
    have mk : ∀ {m c}, Takes0 t (branch fuel m) c v t' → Takes0 t (readByte >>= branch fuel) (m :: c) v t' :=
      fun {m c} hh => Takes0.bind (b := [m]) (Takes0.readByte m) hh
    cases h with
    | number f =>
      refine mk (m := 0) ((takes0_full f).last ?_)
      rw [beNat_be64]
      exact .pure _
    | bool b hb => exact mk (m := 1) ((Takes0.readByte b).last (.pure _))
    | str h => exact mk (m := 2) ((takes0_string _ h).last (.pure _))
    | obj h =>
      rw [List.length_cons] at hb
      exact mk (m := 3) ((takes0_object ih h (by omega) fuel (by omega)).last (.pure _))
    | null => exact mk (m := 5) (.pure _)
    | undefined => exact mk (m := 6) (.pure _)
    | ref h0 hx => exact mk (m := 7) (takes0_ref h0 hx)
    | wrong h => cases h
    | shifted h => cases h
    | ecma count h =>
      rw [List.length_cons, List.length_append] at hb
      refine mk (m := 8) ?_
      have hcount : Takes0 t readU32 (be32 count) count.toNat t := by
        have := takes0_u32 (t := t) count.toNat count.toNat_lt
        rwa [UInt32.ofNat_toNat] at this
      exact Takes0.last (hcount.bind (takes0_object ih h (by omega) fuel (by omega))) (.pure _)
    | @strictArr _ b xs _ hl h =>
      rw [List.length_cons, List.length_append] at hb
      refine mk (m := 10) ?_
      have h2 : Takes0 t (decodeStrictArray (dec fuel)) (be32 (UInt32.ofNat xs.length) ++ b) xs t' :=
        (takes0_u32 xs.length hl).bind ((takes0_push false).step (takes0_arr ih h (by omega) []))
      exact h2.last (.pure _)
    | date f zone =>
      refine mk (m := 11) ?_
      have h2 : Takes0 t decodeDate (be64 f ++ be16 zone) f t := by
        refine (takes0_full f).bind ?_
        refine (takes0_readBytes (be16 zone)).last ?_
        rw [beNat_be64]
        exact .pure _
      exact h2.last (.pure _)
    | longStr h => exact mk (m := 12) ((takes0_longString _ h).last (.pure _))
    | unsupported => exact mk (m := 13) (.pure _)
    | xml h => exact mk (m := 15) ((takes0_longString _ h).last (.pure _))
    | @typed _ name b l _ hn h =>
      rw [List.length_cons, List.length_append] at hb
      refine mk (m := 16) ?_
      have hx : Ext { t with typed := t.typed + 1 } t' := by
        have := (takes0_object (t := { t with typed := t.typed + 1 }) ih h (by omega) fuel (by omega)).1
        exact this
      have h2 : Takes0 t (decodeTypedObject (dec fuel) fuel) (utf8 name ++ b) (name, lastWins l) t' := by
        refine ⟨⟨hx.1, by have := hx.2; simp only at this; omega⟩, ?_⟩
        have key : Takes0 { t with typed := t.typed + 1 } (decodeString >>= fun x => decodeObject (dec fuel) fuel >>= fun o => pure (x, o))
            (utf8 name ++ b) (name, lastWins l) t' :=
          (takes0_string name hn).bind ((takes0_object ih h (by omega) fuel (by omega)).last (.pure _))
        intro s rest hm hc he hd
        exact key.2 { s with refs0 := s.refs0 ++ [.zeroTyped] } rest
          ⟨Holds.refs hm.amf3 _, by simp [hm.len]; omega, fun h => absurd h (by simp), fun h => absurd h (by simp)⟩ hc he hd
      exact h2.last (.pure _)
    | amf3 h => exact mk (m := 17) (takes0_amf3 h)

theorem takes0_decode {b v t'} (h : Read0 true t b v t') : Takes0 t decode b v t' := by
  have := takes0_dec (b.length + 1) t b v t' (by omega) h
  refine ⟨this.1, ?_⟩
  intro s rest hm hc he hd
  exact (takes0_dec (s.data.length + 1) t b v t' (by rw [hd, List.length_append]; omega) h).2 s rest hm hc he hd

end Verif.Amf0
