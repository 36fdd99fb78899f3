import Verif.Lemmas.AmfAccept
/-! # What the AMF0 decoder accepts -/
namespace Verif.Amf0
open Verif.Amf Verif.Spec.Amf0
open Verif.Amf3 (Sound Holds)
open Verif.Spec.Amf3 (Seen Read lastWins)

/-- The decoder's tables hold what has been sent. -/
structure Holds0 (t : Seen0) (s : St) : Prop where
  amf3 : Holds t.amf3 s
  len : s.refs0.length = t.complex.length + t.typed
  objs : t.typed = 0 → ∀ i : Nat, t.complex[i]? = some true → ∃ kvs, s.refs0[i]? = some (.object kvs)
  arrs : t.typed = 0 → ∀ i : Nat, t.complex[i]? = some false → s.refs0[i]? = some .nilArray

/-- More has been sent. -/
def Ext (t t' : Seen0) : Prop := t.complex <+: t'.complex ∧ t.typed ≤ t'.typed

theorem Ext.refl (t : Seen0) : Ext t t := ⟨List.prefix_rfl, Nat.le_refl _⟩
theorem Ext.trans {t t' t'' : Seen0} (h : Ext t t') (h' : Ext t' t'') : Ext t t'' := ⟨h.1.trans h'.1, Nat.le_trans h.2 h'.2⟩

def Sound0 {α} (t : Seen0) (m : GoM St α) (R : Bytes → α → Seen0 → Prop) : Prop :=
  ∀ s a s', Holds0 t s → m s = (.ok a, s') → ∃ b t', s.data = b ++ s'.data ∧ R b a t' ∧ Holds0 t' s' ∧ Ext t t'

namespace Sound0
variable {α β : Type} {t : Seen0}

theorem bind {m : GoM St α} {f : α → GoM St β} {R : Bytes → α → Seen0 → Prop} {Q : Bytes → β → Seen0 → Prop}
    (h : Sound0 t m R) (h' : ∀ b a t', R b a t' → Ext t t' → Sound0 t' (f a) (fun c y t'' => Q (b ++ c) y t'')) : Sound0 t (m >>= f) Q := by
  intro s y s' hs he
  obtain ⟨a, s1, h1, h2⟩ := Amf3.bind_ok he
  obtain ⟨b, t', e1, r1, hs1, f1⟩ := h s a s1 hs h1
  obtain ⟨c, t'', e2, r2, hs2, f2⟩ := h' b a t' r1 f1 s1 y s' hs1 h2
  exact ⟨b ++ c, t'', by rw [e1, e2, List.append_assoc], r2, hs2, f1.trans f2⟩

theorem pure {a : α} {Q : Bytes → α → Seen0 → Prop} (h : Q [] a t) : Sound0 t (Pure.pure a) Q := by
  intro s x s' hs he
  cases he
  exact ⟨[], t, rfl, h, hs, .refl t⟩

theorem fail {e : Err} {Q : Bytes → α → Seen0 → Prop} : Sound0 t (GoM.fail e) Q := by
  intro s x s' hs he
  simp [GoM.fail] at he

theorem mono {m : GoM St α} {R Q : Bytes → α → Seen0 → Prop} (h : Sound0 t m R) (hq : ∀ b a t', R b a t' → Q b a t') : Sound0 t m Q := by
  intro s x s' hs he
  obtain ⟨b, t', e, r, k⟩ := h s x s' hs he
  exact ⟨b, t', e, hq _ _ _ r, k⟩

theorem ite {p : Prop} [Decidable p] {m m' : GoM St α} {Q : Bytes → α → Seen0 → Prop} (h : p → Sound0 t m Q) (h' : ¬ p → Sound0 t m' Q) :
    Sound0 t (if p then m else m') Q := by
  split
  · exact h ‹_›
  · exact h' ‹_›

/-- What is sound for the AMF3 tables leaves the AMF0 table alone. -/
theorem of3 {m : GoM St α} {R : Bytes → α → Seen → Prop} (h : Sound t.amf3 m R) :
    Sound0 t m (fun b a t' => ∃ u, t' = { t with amf3 := u } ∧ R b a u) := by
  intro s a s' hs he
  obtain ⟨b, u, e, r, hs', hr⟩ := h s a s' hs.amf3 he
  refine ⟨b, { t with amf3 := u }, e, ⟨u, rfl, r⟩, ⟨hs', ?_, ?_, ?_⟩, .refl _⟩
  · rw [hr]; exact hs.len
  · rw [hr]; exact hs.objs
  · rw [hr]; exact hs.arrs
end Sound0

variable {t : Seen0}

theorem sound0_readFull (n : Nat) : Sound0 t (readFull n) (fun b a t' => b = a ∧ t' = t ∧ a.length = n) :=
  (Sound0.of3 (Amf3.sound_readFull n)).mono fun b a t' ⟨u, hu, h1, h2, h3⟩ => ⟨h1, by rw [hu, h2], h3⟩

theorem sound0_readBytes (n : Nat) : Sound0 t (readBytes n) (fun b a t' => b = a ∧ t' = t ∧ a.length = n) :=
  (Sound0.of3 (Amf3.sound_readBytes n)).mono fun b a t' ⟨u, hu, h1, h2, h3⟩ => ⟨h1, by rw [hu, h2], h3⟩

theorem sound0_readByte : Sound0 t readByte (fun b a t' => b = [a] ∧ t' = t) :=
  (Sound0.of3 Amf3.sound_readByte).mono fun b a t' ⟨u, hu, h1, h2⟩ => ⟨h1, by rw [hu, h2]⟩

theorem sound0_nextByte (m : UInt8) : Sound0 t (nextByteMustBe m) (fun b _ t' => b = [m] ∧ t' = t) := by
  unfold nextByteMustBe
  refine sound0_readByte.bind fun b a t' h _ => ?_
  obtain ⟨rfl, rfl⟩ := h
  refine Sound0.ite (fun _ => Sound0.fail) fun h => Sound0.pure ?_
  simpa using h

theorem be16_beNat (b : Bytes) (h : b.length = 2) : be16 (UInt16.ofNat (beNat b)) = b ∧ beNat b < 65536 := by
  match b, h with
  | [b0, b1], _ =>
    have := b0.toNat_lt; have := b1.toNat_lt
    simp only [beNat, be16, List.foldl]
    refine ⟨?_, by omega⟩
    simp only [List.cons.injEq, and_true]
    refine ⟨?_, ?_⟩
    · apply UInt8.toNat_inj.1; simp [Nat.shiftRight_eq_div_pow]; omega
    · apply UInt8.toNat_inj.1; simp

theorem be32_beNat (b : Bytes) (h : b.length = 4) : be32 (UInt32.ofNat (beNat b)) = b ∧ beNat b < 2 ^ 32 := by
  match b, h with
  | [b0, b1, b2, b3], _ =>
    have := b0.toNat_lt; have := b1.toNat_lt; have := b2.toNat_lt; have := b3.toNat_lt
    simp only [beNat, be32, List.foldl]
    refine ⟨?_, by omega⟩
    simp only [List.cons.injEq, and_true]
    refine ⟨?_, ?_, ?_, ?_⟩
    · apply UInt8.toNat_inj.1; simp [Nat.shiftRight_eq_div_pow]; omega
    · apply UInt8.toNat_inj.1; simp [Nat.shiftRight_eq_div_pow]; omega
    · apply UInt8.toNat_inj.1; simp [Nat.shiftRight_eq_div_pow]; omega
    · apply UInt8.toNat_inj.1; simp

theorem sound0_readU16 : Sound0 t readU16 (fun b n t' => b = be16 (UInt16.ofNat n) ∧ n < 65536 ∧ t' = t) := by
  unfold readU16
  refine (sound0_readFull 2).bind fun b a t' h _ => ?_
  obtain ⟨rfl, rfl, hl⟩ := h
  refine Sound0.pure ?_
  rw [List.append_nil]
  exact ⟨(be16_beNat b hl).1.symm, (be16_beNat b hl).2, rfl⟩

theorem sound0_readU32 : Sound0 t readU32 (fun b n t' => b = be32 (UInt32.ofNat n) ∧ n < 2 ^ 32 ∧ t' = t) := by
  unfold readU32
  refine (sound0_readFull 4).bind fun b a t' h _ => ?_
  obtain ⟨rfl, rfl, hl⟩ := h
  refine Sound0.pure ?_
  rw [List.append_nil]
  exact ⟨(be32_beNat b hl).1.symm, (be32_beNat b hl).2, rfl⟩

theorem sound0_string : Sound0 t decodeString (fun b x t' => b = utf8 x ∧ x.length < 65536 ∧ t' = t) := by
  unfold decodeString
  refine sound0_readU16.bind fun b n t' h _ => ?_
  obtain ⟨rfl, hn, rfl⟩ := h
  refine (sound0_readBytes n).mono fun c x t'' h => ?_
  obtain ⟨rfl, rfl, rfl⟩ := h
  exact ⟨rfl, hn, rfl⟩

theorem sound0_longString : Sound0 t decodeLongString (fun b x t' => b = utf8Long x ∧ x.length < 2 ^ 32 ∧ t' = t) := by
  unfold decodeLongString
  refine sound0_readU32.bind fun b n t' h _ => ?_
  obtain ⟨rfl, hn, rfl⟩ := h
  refine (sound0_readBytes n).mono fun c x t'' h => ?_
  obtain ⟨rfl, rfl, rfl⟩ := h
  exact ⟨rfl, hn, rfl⟩

theorem Holds.refs {u : Seen} {s : St} (h : Holds u s) (r : List Ref0) : Holds u { s with refs0 := r } :=
  ⟨h.strs, h.len, h.vals, h.lost, h.classes, h.plain, h.kinds⟩

theorem getElem?_snoc {α} (l : List α) (x : α) (i : Nat) (y : α) (h : (l ++ [x])[i]? = some y) :
    i < l.length ∧ l[i]? = some y ∨ i = l.length ∧ y = x := by
  by_cases hi : i < l.length
  · rw [List.getElem?_append_left hi] at h
    exact .inl ⟨hi, h⟩
  · rw [List.getElem?_append_right (by omega)] at h
    rcases hk : i - l.length with _ | k
    · rw [hk] at h
      simp only [List.getElem?_cons_zero, Option.some.injEq] at h
      exact .inr ⟨by omega, h.symm⟩
    · rw [hk] at h; simp at h

/-- A new entry: an object or a strict array. -/
theorem sound0_pushRef (o : Bool) : Sound0 t (pushRef (if o then .object [] else .nilArray))
    (fun b id t' => b = [] ∧ id = t.complex.length + t.typed ∧ t' = t.add o) := by
  intro s x s' hs he
  unfold pushRef at he
  simp only [Prod.mk.injEq, Res.ok.injEq] at he
  obtain ⟨rfl, rfl⟩ := he
  have hl := hs.len
  refine ⟨[], t.add o, rfl, ⟨rfl, hl, rfl⟩, ⟨Holds.refs hs.amf3 _, ?_, ?_, ?_⟩, List.prefix_append _ _, Nat.le_refl _⟩
  · simp only [Seen0.add, List.length_append, List.length_cons, List.length_nil]; omega
  · intro h0 i hi
    simp only [Seen0.add] at hi h0
    rcases getElem?_snoc _ _ _ _ hi with ⟨h1, h2⟩ | ⟨rfl, h2⟩
    · simp only
      rw [List.getElem?_append_left (by omega)]
      exact hs.objs h0 i h2
    · refine ⟨[], ?_⟩
      simp only
      rw [List.getElem?_append_right (by omega), hl, h0, ← h2]
      simp
  · intro h0 i hi
    simp only [Seen0.add] at hi h0
    rcases getElem?_snoc _ _ _ _ hi with ⟨h1, h2⟩ | ⟨rfl, h2⟩
    · simp only
      rw [List.getElem?_append_left (by omega)]
      exact hs.arrs h0 i h2
    · simp only
      rw [List.getElem?_append_right (by omega), hl, h0, ← h2]
      simp

/-- Changing an object. -/
theorem sound0_setRef (id : Nat) (kvs : List (Bytes × Val)) (h : t.typed = 0 → t.complex[id]? = some true) :
    Sound0 t (setRef id kvs) (fun b _ t' => b = [] ∧ t' = t) := by
  intro s x s' hs he
  unfold setRef at he
  rw [GoM.modify_apply] at he
  cases he
  refine ⟨[], t, rfl, ⟨rfl, rfl⟩, ⟨Holds.refs hs.amf3 _, ?_, ?_, ?_⟩, .refl t⟩
  · simp only [List.length_set]; exact hs.len
  · intro h0 i hi
    simp only [List.getElem?_set]
    obtain ⟨k, hk⟩ := hs.objs h0 i hi
    split
    · rename_i e
      subst e
      have : id < s.refs0.length := (List.getElem?_eq_some_iff.1 hk).1
      rw [if_pos this]
      exact ⟨_, rfl⟩
    · exact ⟨k, hk⟩
  · intro h0 i hi
    simp only [List.getElem?_set]
    split
    · rename_i e
      subst e
      rw [h h0] at hi
      simp at hi
    · exact hs.arrs h0 i hi

variable {d : GoM St Val}

def Decodes0 (d : GoM St Val) : Prop := ∀ t, Sound0 t d (fun b v t' => Read0 false t b v t')

theorem ext_obj {t t' : Seen0} {id : Nat} (h : t.typed = 0 → t.complex[id]? = some true) (hx : Ext t t') :
    t'.typed = 0 → t'.complex[id]? = some true := by
  intro h0
  have h1 := h (by have := hx.2; omega)
  obtain ⟨r, hr⟩ := hx.1
  rw [← hr, List.getElem?_append_left (List.getElem?_eq_some_iff.1 h1).1]
  exact h1

theorem sound0_objLoop (hd : Decodes0 d) (id n : Nat) : ∀ (t : Seen0) (acc : List (Bytes × Val)), (t.typed = 0 → t.complex[id]? = some true) →
    Sound0 t (objLoop d id n acc) (fun b a t' => ∃ l, a = setAll acc l ∧ ReadFields false t b l t') := by
  induction n with
  | zero =>
    intro t acc _ s a s' hs he
    simp [objLoop, GoM.diverge] at he
  | succ n ih =>
    intro t acc hid
    rw [objLoop]
    refine sound0_string.bind fun b key t1 h1 _ => ?_
    obtain ⟨rfl, hk, rfl⟩ := h1
    refine Sound0.ite (fun h0 => ?_) fun h0 => ?_
    · refine (sound0_nextByte 9).bind fun c _ t2 h2 _ => ?_
      obtain ⟨rfl, rfl⟩ := h2
      refine Sound0.pure ⟨[], rfl, ?_⟩
      rw [h0]
      exact .done
    · refine (hd t1).bind fun c v t2 h2 hx => ?_
      have hid2 := ext_obj hid hx
      refine (sound0_setRef id _ hid2).bind fun e _ t3 h3 _ => ?_
      obtain ⟨rfl, rfl⟩ := h3
      refine (ih t3 _ hid2).mono fun f a t4 h4 => ?_
      obtain ⟨l, rfl, h4⟩ := h4
      exact ⟨(key, v) :: l, rfl, .more h0 hk h2 h4⟩

theorem sound0_decodeObject (hd : Decodes0 d) (fuel : Nat) :
    Sound0 t (decodeObject d fuel) (fun b a t' => ∃ l, a = lastWins l ∧ ReadFields false (t.add true) b l t') := by
  unfold decodeObject
  refine (sound0_pushRef true).bind fun b id t1 h1 _ => ?_
  obtain ⟨rfl, rfl, rfl⟩ := h1
  refine (sound0_objLoop hd _ fuel _ [] ?_).mono fun c a t2 h2 => ?_
  · intro h0
    simp only [Seen0.add] at h0 ⊢
    simp [h0]
  · obtain ⟨l, rfl, h2⟩ := h2
    exact ⟨l, setAll_nil l, h2⟩

theorem sound0_arrLoop (hd : Decodes0 d) (n : Nat) : ∀ (t : Seen0) (acc : List Val),
    Sound0 t (arrLoop d n acc) (fun b a t' => ∃ xs, a = acc ++ xs ∧ xs.length = n ∧ ReadAll0 false t b xs t') := by
  induction n with
  | zero => intro t acc; exact Sound0.pure ⟨[], (List.append_nil _).symm, rfl, .nil⟩
  | succ n ih =>
    intro t acc
    refine (hd t).bind fun b v t1 hv _ => ?_
    refine (ih t1 (acc ++ [v])).mono fun e a t3 h => ?_
    obtain ⟨xs, rfl, h1, h2⟩ := h
    exact ⟨v :: xs, by simp, by simp [h1], .cons hv h2⟩

theorem sound0_strictArray (hd : Decodes0 d) : Sound0 t (decodeStrictArray d) (fun b xs t' => Read0 false t (10 :: b) (.arr xs) t') := by
  unfold decodeStrictArray
  refine sound0_readU32.bind fun b n t1 h1 _ => ?_
  obtain ⟨rfl, hn, rfl⟩ := h1
  refine (sound0_pushRef false).bind fun c _ t2 h2 _ => ?_
  obtain ⟨rfl, _, rfl⟩ := h2
  refine (sound0_arrLoop hd _ _ _).mono fun e a t3 h3 => ?_
  obtain ⟨xs, rfl, rfl, h3⟩ := h3
  exact .strictArr hn h3

theorem sound0_date : Sound0 t decodeDate (fun b f t' => Read0 false t (11 :: b) (.f64 f) t') := by
  unfold decodeDate
  refine (sound0_readFull 8).bind fun b a t' h _ => ?_
  obtain ⟨rfl, rfl, hl⟩ := h
  refine (sound0_readBytes 2).bind fun c a t' h _ => ?_
  obtain ⟨rfl, rfl, hl2⟩ := h
  refine Sound0.pure ?_
  have := Read0.date (strict := false) (t := t') (UInt64.ofNat (beNat b)) (UInt16.ofNat (beNat c))
  rw [Amf3.be64_beNat b hl, (be16_beNat c hl2).1] at this
  rw [List.append_nil]
  exact this

/-- The extra entry of a typed object. -/
theorem sound0_pushTyped {α} {f : Nat → GoM St α} {Q : Bytes → α → Seen0 → Prop}
    (h : ∀ i s a s', Holds t.amf3 s → s.refs0.length = t.complex.length + t.typed + 1 → f i s = (.ok a, s') →
      ∃ b t', s.data = b ++ s'.data ∧ Q b a t' ∧ Holds0 t' s' ∧ Ext t t') : Sound0 t (pushRef .zeroTyped >>= f) Q := by
  intro s a s' hs he
  rw [GoM.bind_apply] at he
  obtain ⟨b, t', e, r, hs', hx⟩ := h _ { s with refs0 := s.refs0 ++ [.zeroTyped] } a s' (Holds.refs hs.amf3 _) (by simp [hs.len]) he
  exact ⟨b, t', e, r, hs', hx⟩

theorem sound0_typed (hd : Decodes0 d) (fuel : Nat) :
    Sound0 t (decodeTypedObject d fuel) (fun b p t' => Read0 false t (16 :: b) (.typed p.1 p.2) t') := by
  unfold decodeTypedObject
  refine sound0_pushTyped fun i s p s' h3 hl he => ?_
  -- in the state after the push, as if one object more were typed
  have key : Sound0 { t with typed := t.typed + 1 } (decodeString >>= fun x => decodeObject d fuel >>= fun o => pure (x, o))
      (fun b p t' => Read0 false t (16 :: b) (.typed p.1 p.2) t') := by
    refine sound0_string.bind fun b x t1 h1 _ => ?_
    obtain ⟨rfl, hx, rfl⟩ := h1
    refine (sound0_decodeObject hd fuel).bind fun c o t2 h2 _ => ?_
    obtain ⟨l, rfl, h2⟩ := h2
    refine Sound0.pure ?_
    rw [List.append_nil]
    exact .typed hx h2
  obtain ⟨b, t', e, r, hs', hx⟩ := key s p s' ⟨h3, by simp only; omega, fun h => absurd h (by simp), fun h => absurd h (by simp)⟩ he
  exact ⟨b, t', e, r, hs', hx.1, by have := hx.2; simp only at this; omega⟩

theorem sound0_reference : Sound0 t decodeReference (fun b v t' => Read0 false t (7 :: b) v t') := by
  unfold decodeReference
  refine sound0_readU16.bind fun b n t1 h1 _ => ?_
  obtain ⟨rfl, hn, rfl⟩ := h1
  intro s a s' hs he
  rw [GoM.bind_apply, GoM.get_apply] at he
  simp only at he
  have hl := hs.len
  have hto : (UInt16.ofNat n).toNat = n := by simp; omega
  split at he
  · simp at he
  · rename_i hle
    rw [GoM.bind_apply, GoM.lift_apply] at he
    rcases hx : s.refs0[n]? with _ | r
    · have : goIndex s.refs0 (n : Int) = .panic := by
        unfold goIndex
        rw [if_neg (by omega)]
        simp only [Int.toNat_natCast, hx]
      rw [this] at he
      simp at he
    · have : goIndex s.refs0 (n : Int) = .ok r := by
        unfold goIndex
        rw [if_neg (by omega)]
        simp only [Int.toNat_natCast, hx]
      rw [this] at he
      have hlt : n < s.refs0.length := (List.getElem?_eq_some_iff.1 hx).1
      have fin : ∀ v, a = v ∧ s' = s → Read0 false t1 (7 :: be16 (UInt16.ofNat n)) v t1 →
          ∃ b t', s.data = b ++ s'.data ∧ Read0 false t1 (7 :: (be16 (UInt16.ofNat n) ++ b)) a t' ∧ Holds0 t' s' ∧ Ext t1 t' := by
        rintro v ⟨rfl, rfl⟩ h
        exact ⟨[], t1, rfl, by rw [List.append_nil]; exact h, hs, .refl _⟩
      by_cases h0 : t1.typed = 0
      · rcases hc : t1.complex[n]? with _ | o
        · rw [List.getElem?_eq_none_iff] at hc; omega
        · cases o with
          | true =>
            obtain ⟨k, hk⟩ := hs.objs h0 n hc
            rw [hx] at hk
            cases hk
            cases he
            have := Read0.ref (strict := false) (n := UInt16.ofNat n) h0 (by rw [hto]; exact hc)
            rw [hto] at this
            exact fin _ ⟨rfl, rfl⟩ this
          | false =>
            have hk := hs.arrs h0 n hc
            rw [hx] at hk
            cases hk
            cases he
            exact fin _ ⟨rfl, rfl⟩ (.wrong rfl h0 (by rw [hto]; exact hc))
      · have sh : ∀ v, v = .shared n ∨ v = .arr [] ∨ v = .typed [] [] → Read0 false t1 (7 :: be16 (UInt16.ofNat n)) v t1 := by
          intro v hv
          exact .shifted rfl h0 (by rw [hto]; omega) (by rw [hto]; exact hv)
        cases r with
        | object k => cases he; exact fin _ ⟨rfl, rfl⟩ (sh _ (.inl rfl))
        | nilArray => cases he; exact fin _ ⟨rfl, rfl⟩ (sh _ (.inr (.inl rfl)))
        | zeroTyped => cases he; exact fin _ ⟨rfl, rfl⟩ (sh _ (.inr (.inr rfl)))

theorem sound0_branch (fuel : Nat) (hd : Decodes0 (dec fuel)) (m : UInt8) :
    Sound0 t (branch fuel m) (fun b a t' => Read0 false t (m :: b) a t') := by
  unfold branch
  refine Sound0.ite (fun h => h ▸ ?_) fun _ => ?_
  · refine (sound0_readFull 8).bind fun b a t' h _ => ?_
    obtain ⟨rfl, rfl, hl⟩ := h
    refine Sound0.pure ?_
    have := Read0.number (strict := false) (t := t') (UInt64.ofNat (beNat b))
    rw [Amf3.be64_beNat b hl] at this
    rw [List.append_nil]
    exact this
  refine Sound0.ite (fun h => ?_) fun _ => ?_
  · subst h
    refine sound0_readByte.bind fun b a t' h _ => ?_
    obtain ⟨rfl, rfl⟩ := h
    exact Sound0.pure (.bool a (fun h => absurd h Bool.false_ne_true))
  refine Sound0.ite (fun h => h ▸ ?_) fun _ => ?_
  · refine sound0_string.bind fun b a t' h _ => ?_
    obtain ⟨rfl, h, rfl⟩ := h
    refine Sound0.pure ?_
    rw [List.append_nil]
    exact .str h
  refine Sound0.ite (fun h => h ▸ ?_) fun _ => ?_
  · refine (sound0_decodeObject hd fuel).bind fun b a t' h _ => ?_
    obtain ⟨l, rfl, h⟩ := h
    refine Sound0.pure ?_
    rw [List.append_nil]
    exact .obj h
  refine Sound0.ite (fun _ => Sound0.fail) fun _ => ?_
  refine Sound0.ite (fun h => Sound0.pure ?_) fun _ => ?_
  · rcases h with rfl | rfl | rfl
    · exact .null
    · exact .undefined
    · exact .unsupported
  refine Sound0.ite (fun h => h ▸ sound0_reference) fun _ => ?_
  refine Sound0.ite (fun h => h ▸ ?_) fun _ => ?_
  · unfold decodeEcmaArray
    refine Sound0.bind (R := fun b a t' => ∃ n l, a = lastWins l ∧ ∃ c, b = be32 n ++ c ∧ ReadFields false (t.add true) c l t') ?_ fun b a t' h _ => ?_
    · refine sound0_readU32.bind fun b n t' h _ => ?_
      obtain ⟨rfl, hn, rfl⟩ := h
      refine (sound0_decodeObject hd fuel).mono fun c a t2 h2 => ?_
      obtain ⟨l, rfl, h2⟩ := h2
      exact ⟨_, l, rfl, c, rfl, h2⟩
    · obtain ⟨n, l, rfl, c, rfl, h⟩ := h
      refine Sound0.pure ?_
      rw [List.append_nil]
      exact .ecma n h
  refine Sound0.ite (fun h => h ▸ ?_) fun _ => ?_
  · refine (sound0_strictArray hd).bind fun b a t' h _ => ?_
    refine Sound0.pure ?_
    rw [List.append_nil]
    exact h
  refine Sound0.ite (fun h => h ▸ ?_) fun _ => ?_
  · refine sound0_date.bind fun b a t' h _ => ?_
    refine Sound0.pure ?_
    rw [List.append_nil]
    exact h
  refine Sound0.ite (fun h => h ▸ ?_) fun _ => ?_
  · refine sound0_longString.bind fun b a t' h _ => ?_
    obtain ⟨rfl, h, rfl⟩ := h
    refine Sound0.pure ?_
    rw [List.append_nil]
    exact .longStr h
  refine Sound0.ite (fun _ => Sound0.fail) fun _ => ?_
  refine Sound0.ite (fun h => h ▸ ?_) fun _ => ?_
  · refine sound0_longString.bind fun b a t' h _ => ?_
    obtain ⟨rfl, h, rfl⟩ := h
    refine Sound0.pure ?_
    rw [List.append_nil]
    exact .xml h
  refine Sound0.ite (fun h => h ▸ ?_) fun _ => ?_
  · refine (sound0_typed hd fuel).bind fun b a t' h _ => ?_
    refine Sound0.pure ?_
    rw [List.append_nil]
    exact h
  refine Sound0.ite (fun h => h ▸ ?_) fun _ => Sound0.fail
  refine (Sound0.of3 (Amf3.sound_decode noHandlers t.amf3)).mono fun b a t' h => ?_
  obtain ⟨u, rfl, h⟩ := h
  exact .amf3 h

theorem sound0_dec (fuel : Nat) : Decodes0 (dec fuel) := by
  induction fuel with
  | zero =>
    intro t s a s' hs he
    simp [dec, GoM.diverge] at he
  | succ fuel ih =>
    intro t
    rw [dec_succ]
    refine sound0_readByte.bind fun b m t' h _ => ?_
    obtain ⟨rfl, rfl⟩ := h
    exact sound0_branch fuel ih m

theorem sound0_decode : Decodes0 decode := fun t s a s' hs he => sound0_dec _ t s a s' hs he

theorem readAll0_snoc {b v t' c t''} {vs : List Val} (h : ReadAll0 false t b vs t') (hv : Read0 false t' c v t'') :
    ReadAll0 false t (b ++ c) (vs ++ [v]) t'' := by
  induction vs generalizing t b with
  | nil =>
    cases h
    simpa using ReadAll0.cons hv .nil
  | cons w vs ih =>
    cases h with
    | cons h1 h2 =>
      rw [List.append_assoc]
      exact .cons h1 (ih h2)

theorem sound0_batchLoop (hd : Decodes0 d) (n : Nat) : ∀ (t t0 : Seen0) (b0 : Bytes) (ret : List Val) (s : St), ReadAll0 false t0 b0 ret t → Holds0 t s →
    ∀ vs e s', Amf3.batchLoop d n ret s = (.ok (vs, e), s') →
    ∃ b rest t', s.data = b ++ rest ∧ ReadAll0 false t0 (b0 ++ b) vs t' := by
  induction n with
  | zero => intro t t0 b0 ret s h hs vs e s' he; simp [Amf3.batchLoop, GoM.diverge] at he
  | succ n ih =>
    intro t t0 b0 ret s h hs vs e s' he
    rw [Amf3.batchLoop] at he
    rcases hm : d s with ⟨r, s1⟩
    simp only [hm] at he
    cases r with
    | ok a =>
      obtain ⟨b, t1, e1, r1, hs1, _⟩ := hd t s a s1 hs hm
      obtain ⟨c, rest, t2, e2, r2⟩ := ih t1 t0 (b0 ++ b) (ret ++ [a]) s1 (readAll0_snoc h r1) hs1 vs e s' he
      exact ⟨b ++ c, rest, t2, by rw [e1, e2, List.append_assoc], by rw [← List.append_assoc]; exact r2⟩
    | err e' =>
      have : vs = ret := by cases e' <;> simp_all
      rw [this]
      exact ⟨[], s.data, t, rfl, by rw [List.append_nil]; exact h⟩
    | panic => simp at he
    | diverge => simp at he

end Verif.Amf0
