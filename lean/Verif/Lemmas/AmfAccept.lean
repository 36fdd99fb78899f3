import Verif.Spec.AmfAccept
import Verif.Lemmas.Amf3Peer
import Verif.Lemmas.Float64Round
/-! # What the AMF3 decoder accepts -/
namespace Verif.Amf3
open Verif.Amf Verif.Spec.Amf3

/-- The decoder's tables hold what has been sent. -/
structure Holds (t : Seen) (s : St) : Prop where
  strs : s.strTab = t.strs
  len : s.objTab.length = t.vals.length
  vals : ∀ (i : Nat) (v : Val), t.vals[i]? = some (some v) → s.objTab[i]? = some v
  lost : ∀ i : Nat, t.vals[i]? = some none → s.objTab[i]? = some .nil ∨ s.objTab[i]? = some (.ecma [] [])
  classes : s.traits.map Trait.properties = t.classes.map Prod.snd
  plain : ∀ c ∈ s.traits, c.externalizable = false ∧ c.dynamic = false
  kinds : ∀ (i : Nat) (d : List Val) (a : List (Bytes × Val)), t.vals[i]? ≠ some (some (.ecma d a))

/-- When `m` succeeds, it has read bytes that are described by `R`. -/
def Sound {α} (t : Seen) (m : GoM St α) (R : Bytes → α → Seen → Prop) : Prop :=
  ∀ s a s', Holds t s → m s = (.ok a, s') →
    ∃ b t', s.data = b ++ s'.data ∧ R b a t' ∧ Holds t' s' ∧ s'.refs0 = s.refs0

theorem bind_ok {σ α β} {m : GoM σ α} {f : α → GoM σ β} {s s' : σ} {y : β} (h : (m >>= f) s = (.ok y, s')) :
    ∃ a s1, m s = (.ok a, s1) ∧ f a s1 = (.ok y, s') := by
  rw [GoM.bind_apply] at h
  rcases hm : m s with ⟨r, s1⟩
  rw [hm] at h
  cases r with
  | ok a => exact ⟨a, s1, rfl, h⟩
  | err e => simp at h
  | panic => simp at h
  | diverge => simp at h

namespace Sound
variable {α β : Type} {t : Seen}

theorem bind {m : GoM St α} {f : α → GoM St β} {R : Bytes → α → Seen → Prop} {Q : Bytes → β → Seen → Prop}
    (h : Sound t m R) (h' : ∀ b a t', R b a t' → Sound t' (f a) (fun c y t'' => Q (b ++ c) y t'')) : Sound t (m >>= f) Q := by
  intro s y s' hs he
  obtain ⟨a, s1, h1, h2⟩ := bind_ok he
  obtain ⟨b, t', e1, r1, hs1, f1⟩ := h s a s1 hs h1
  obtain ⟨c, t'', e2, r2, hs2, f2⟩ := h' b a t' r1 s1 y s' hs1 h2
  exact ⟨b ++ c, t'', by rw [e1, e2, List.append_assoc], r2, hs2, f2.trans f1⟩

theorem pure {a : α} {Q : Bytes → α → Seen → Prop} (h : Q [] a t) : Sound t (Pure.pure a) Q := by
  intro s x s' hs he
  cases he
  exact ⟨[], t, rfl, h, hs, rfl⟩

theorem fail {e : Err} {Q : Bytes → α → Seen → Prop} : Sound t (GoM.fail e) Q := by
  intro s x s' hs he
  simp [GoM.fail] at he

theorem mono {m : GoM St α} {R Q : Bytes → α → Seen → Prop} (h : Sound t m R) (hq : ∀ b a t', R b a t' → Q b a t') : Sound t m Q := by
  intro s x s' hs he
  obtain ⟨b, t', e, r, k⟩ := h s x s' hs he
  exact ⟨b, t', e, hq _ _ _ r, k⟩

theorem ite {p : Prop} [Decidable p] {m m' : GoM St α} {Q : Bytes → α → Seen → Prop} (h : p → Sound t m Q) (h' : ¬ p → Sound t m' Q) :
    Sound t (if p then m else m') Q := by
  split
  · exact h ‹_›
  · exact h' ‹_›
end Sound

theorem Holds.data {t : Seen} {s : St} (h : Holds t s) (d : Bytes) : Holds t { s with data := d } :=
  ⟨h.strs, h.len, h.vals, h.lost, h.classes, h.plain, h.kinds⟩

variable {t : Seen}

theorem sound_rawRead (n : Nat) : Sound t (rawRead n) (fun b a t' => b = a ∧ t' = t ∧ a.length ≤ n ∧ (n ≠ 0 → a ≠ [])) := by
  intro s a s' hs he
  unfold rawRead at he
  split at he
  · rename_i hd
    split at he
    · rename_i hn
      simp only [Prod.mk.injEq, Res.ok.injEq] at he
      obtain ⟨rfl, rfl⟩ := he
      exact ⟨[], t, rfl, ⟨rfl, rfl, by simp, fun h => absurd hn.1 h⟩, hs, rfl⟩
    · simp at he
  · rename_i hd
    simp only [Prod.mk.injEq, Res.ok.injEq] at he
    obtain ⟨rfl, rfl⟩ := he
    have hl : 0 < s.data.length := List.length_pos_iff.2 (by simpa using hd)
    refine ⟨_, t, (List.take_append_drop _ _).symm, ⟨rfl, rfl, ?_, ?_⟩, hs.data _, rfl⟩
    · rw [List.length_take, St.got]; omega
    · intro hn h0
      have := congrArg List.length h0
      rw [List.length_take, St.got, List.length_nil] at this
      omega

theorem sound_readBytes (n : Nat) : Sound t (readBytes n) (fun b a t' => b = a ∧ t' = t ∧ a.length = n) := by
  unfold readBytes
  refine (sound_rawRead n).bind fun b a t' h => ?_
  obtain ⟨rfl, rfl, -, -⟩ := h
  refine Sound.ite (fun _ => Sound.fail) fun hn => Sound.pure ?_
  exact ⟨by simp, rfl, Decidable.not_not.1 hn⟩

theorem sound_readByte : Sound t readByte (fun b a t' => b = [a] ∧ t' = t) := by
  unfold readByte
  refine (sound_readBytes 1).bind fun b a t' h => ?_
  obtain ⟨rfl, rfl, h1⟩ := h
  obtain ⟨x, rfl⟩ : ∃ x, b = [x] := List.length_eq_one_iff.1 h1
  exact Sound.pure (a := x) ⟨rfl, rfl⟩

theorem sound_readFull (n : Nat) : Sound t (readFull n) (fun b a t' => b = a ∧ t' = t ∧ a.length = n) := by
  intro s a s' hs he
  unfold readFull at he
  split at he
  · simp at he
  split at he
  · simp at he
  · simp only [Prod.mk.injEq, Res.ok.injEq] at he
    obtain ⟨rfl, rfl⟩ := he
    exact ⟨_, t, (List.take_append_drop _ _).symm, ⟨rfl, rfl, by rw [List.length_take]; omega⟩, hs.data _, rfl⟩

theorem sound_readUint29 : Sound t readUint29 (fun b a t' => IsU29 b a.toNat ∧ t' = t) := by
  unfold readUint29
  have z : (0 : UInt32).toNat = 0 := rfl
  rw [u29Loop_succ]
  refine sound_readByte.bind fun _ a _ h => ?_
  obtain ⟨rfl, rfl⟩ := h
  have ea := step7 0 a 0 z (by omega)
  refine Sound.ite (fun h => Sound.pure ⟨?_, rfl⟩) fun ha => ?_
  · rw [and80] at h
    rw [ea, show 0 * 128 + a.toNat % 128 = a.toNat by omega]
    exact .one a h
  rw [and80] at ha
  rw [u29Loop_succ]
  refine sound_readByte.bind fun _ b _ h => ?_
  obtain ⟨rfl, rfl⟩ := h
  have eb := step7 _ b _ ea (by omega)
  have hA : a.toNat < 256 := a.toNat_lt
  have hB : b.toNat < 256 := b.toNat_lt
  refine Sound.ite (fun h => Sound.pure ⟨?_, rfl⟩) fun hb => ?_
  · rw [and80] at h
    rw [eb, show (0 * 128 + a.toNat % 128) * 128 + b.toNat % 128 = (a.toNat - 128) * 128 + b.toNat by omega]
    exact .two a b (by omega) h
  rw [and80] at hb
  rw [u29Loop_succ]
  refine sound_readByte.bind fun _ c _ h => ?_
  obtain ⟨rfl, rfl⟩ := h
  have ec := step7 _ c _ eb (by omega)
  have hC : c.toNat < 256 := c.toNat_lt
  refine Sound.ite (fun h => Sound.pure ⟨?_, rfl⟩) fun hc => ?_
  · rw [and80] at h
    rw [ec, show ((0 * 128 + a.toNat % 128) * 128 + b.toNat % 128) * 128 + c.toNat % 128 =
      ((a.toNat - 128) * 128 + (b.toNat - 128)) * 128 + c.toNat by omega]
    exact .three a b c (by omega) (by omega) h
  rw [and80] at hc
  unfold u29Loop
  refine sound_readByte.bind fun _ d _ h => ?_
  obtain ⟨rfl, rfl⟩ := h
  have hD : d.toNat < 256 := d.toNat_lt
  refine Sound.pure ⟨?_, rfl⟩
  rw [UInt32.toNat_add, UInt32.toNat_shiftLeft, UInt8.toNat_toUInt32, ec]
  have := IsU29.four a b c d (by omega) (by omega) (by omega)
  rw [show ((((0 * 128 + a.toNat % 128) * 128 + b.toNat % 128) * 128 + c.toNat % 128) <<< (UInt32.toNat 8 % 32) % 2 ^ 32 + d.toNat) % 2 ^ 32 =
    (((a.toNat - 128) * 128 + (b.toNat - 128)) * 128 + (c.toNat - 128)) * 256 + d.toNat by
      simp [Nat.shiftLeft_eq]; omega]
  exact this

theorem sound_decodeUint29 : Sound t decodeUint29 (fun b a t' => t' = t ∧ IsU29 b (2 * a.2.toNat + if a.1 then 0 else 1)) := by
  unfold decodeUint29
  refine sound_readUint29.bind fun b a t' h => ?_
  obtain ⟨h, rfl⟩ := h
  refine Sound.pure ⟨rfl, ?_⟩
  have e1 : (a >>> 1).toNat = a.toNat / 2 := by simp [UInt32.toNat_shiftRight, Nat.shiftRight_eq_div_pow]
  have e2 : (a &&& 1 == 0) = decide (a.toNat % 2 = 0) := by
    rw [Bool.eq_iff_iff, beq_iff_eq, decide_eq_true_iff, ← UInt32.toNat_inj, UInt32.toNat_and]
    simp
  simp only [e1, e2, List.append_nil]
  by_cases hp : a.toNat % 2 = 0
  · rw [decide_eq_true hp, if_pos rfl, show 2 * (a.toNat / 2) + 0 = a.toNat by omega]; exact h
  · rw [decide_eq_false hp, if_neg (by simp), show 2 * (a.toNat / 2) + 1 = a.toNat by omega]; exact h

theorem sound_decodeString : Sound t decodeString (fun b a t' => ReadStr t b a t') := by
  unfold decodeString
  refine sound_decodeUint29.bind fun b a t' h => ?_
  obtain ⟨isRef, n⟩ := a
  obtain ⟨rfl, h⟩ := h
  simp only at h ⊢
  refine Sound.ite (fun hr => ?_) fun hr => ?_
  · intro s x s' hs he
    rw [GoM.bind_apply, GoM.get_apply] at he
    simp only at he
    split at he
    · simp at he
    · rename_i hl
      have hx : s.strTab[n.toNat]? = some s.strTab[n.toNat] := List.getElem?_eq_getElem (by omega)
      have hi : goIndex s.strTab (n.toNat : Int) = .ok s.strTab[n.toNat] := by
        unfold goIndex
        rw [if_neg (by omega)]
        simp only [Int.toNat_natCast, hx]
      rw [GoM.lift_apply, hi] at he
      simp only [Prod.mk.injEq, Res.ok.injEq] at he
      obtain ⟨rfl, rfl⟩ := he
      refine ⟨[], t', rfl, ?_, hs, rfl⟩
      rw [if_pos hr] at h
      simp only [List.append_nil]
      exact .ref h (by rw [← hs.strs]; exact hx)
  · rw [if_neg hr] at h
    refine Sound.ite (fun h0 => Sound.pure ?_) fun h0 => ?_
    · rw [List.append_nil]
      rw [h0] at h
      exact .empty h
    · refine (sound_readBytes n.toNat).bind fun c x t'' hx => ?_
      obtain ⟨rfl, rfl, hl⟩ := hx
      intro s y s' hs he
      rw [GoM.bind_apply, GoM.modify_apply] at he
      simp only [GoM.pure_apply, Prod.mk.injEq, Res.ok.injEq] at he
      obtain ⟨rfl, rfl⟩ := he
      refine ⟨[], { t'' with strs := t''.strs ++ [c] }, rfl, ?_, ⟨by simp [hs.strs], hs.len, hs.vals, hs.lost, hs.classes, hs.plain, hs.kinds⟩, rfl⟩
      show ReadStr _ (b ++ (c ++ [])) _ _
      rw [List.append_nil]
      refine .full (by rw [hl]; exact h) ?_
      rintro rfl
      exact h0 (UInt32.toNat_inj.1 (by simpa using hl.symm))

theorem sound_objRef (i : Nat) : Sound t (objRef i) (fun b a t' => b = [] ∧ t' = t ∧ i < t.vals.length ∧
    (t.vals[i]? = some (some a) ∧ (∀ d l, a ≠ .ecma d l) ∨ t.vals[i]? = some none ∧ (a = .nil ∨ a = .ecma [] []))) := by
  intro s x s' hs he
  unfold objRef at he
  rw [GoM.bind_apply, GoM.get_apply] at he
  simp only at he
  split at he
  · simp at he
  · rename_i hl
    have hx : s.objTab[i]? = some s.objTab[i] := List.getElem?_eq_getElem (by omega)
    have hi : goIndex s.objTab (i : Int) = .ok s.objTab[i] := by
      unfold goIndex
      rw [if_neg (by omega)]
      simp only [Int.toNat_natCast, hx]
    rw [GoM.lift_apply, hi] at he
    simp only [Prod.mk.injEq, Res.ok.injEq] at he
    obtain ⟨rfl, rfl⟩ := he
    have hlen := hs.len
    refine ⟨[], t, rfl, ⟨rfl, rfl, by omega, ?_⟩, hs, rfl⟩
    rcases hv : t.vals[i]? with _ | _ | v
    · rw [List.getElem?_eq_none_iff] at hv; omega
    · right
      refine ⟨rfl, ?_⟩
      rcases hs.lost i hv with h | h
      · rw [h] at hx; exact .inl (Option.some.inj hx).symm
      · rw [h] at hx; exact .inr (Option.some.inj hx).symm
    · left
      have := hs.vals i v hv
      rw [hx] at this
      obtain rfl := Option.some.inj this
      exact ⟨rfl, fun d l hd => hs.kinds i d l (hd ▸ hv)⟩

/-- What stands for the value `v` in the specification. -/
def Stands (v : Val) (o : Option Val) : Prop := o = some v ∧ (∀ d a, v ≠ .ecma d a) ∨ o = none ∧ (v = .nil ∨ v = .ecma [] [])

theorem sound_pushObj (v : Val) (o : Option Val) (ho : Stands v o) :
    Sound t (pushObj v) (fun b _ t' => b = [] ∧ t' = t.add o) := by
  intro s x s' hs he
  unfold pushObj at he
  rw [GoM.modify_apply] at he
  cases he
  have hlen := hs.len
  refine ⟨[], _, rfl, ⟨rfl, rfl⟩, ⟨hs.strs, by simp [Seen.add, hlen], ?_, ?_, hs.classes, hs.plain, ?_⟩, rfl⟩
  · intro i w hw
    simp only [Seen.add] at hw ⊢
    by_cases hi : i < t.vals.length
    · rw [List.getElem?_append_left hi] at hw
      rw [List.getElem?_append_left (by omega)]
      exact hs.vals i w hw
    · rw [List.getElem?_append_right (by omega)] at hw
      rw [List.getElem?_append_right (by omega), hlen]
      have h0 : i - t.vals.length = 0 := by
        rcases h : i - t.vals.length with _ | k
        · rfl
        · rw [h] at hw; simp at hw
      rw [h0] at hw ⊢
      simp only [List.getElem?_cons_zero, Option.some.injEq] at hw ⊢
      rcases ho with ho | ho
      · rw [ho.1] at hw; exact Option.some.inj hw
      · rw [ho.1] at hw; cases hw
  · intro i hw
    simp only [Seen.add] at hw ⊢
    by_cases hi : i < t.vals.length
    · rw [List.getElem?_append_left hi] at hw
      rw [List.getElem?_append_left (by omega)]
      exact hs.lost i hw
    · rw [List.getElem?_append_right (by omega)] at hw
      rw [List.getElem?_append_right (by omega), hlen]
      have h0 : i - t.vals.length = 0 := by
        rcases h : i - t.vals.length with _ | k
        · rfl
        · rw [h] at hw; simp at hw
      rw [h0] at hw ⊢
      simp only [List.getElem?_cons_zero, Option.some.injEq] at hw ⊢
      rcases ho with ho | ho
      · rw [ho.1] at hw; cases hw
      · exact ho.2
  · intro i d a hw
    simp only [Seen.add] at hw
    by_cases hi : i < t.vals.length
    · rw [List.getElem?_append_left hi] at hw
      exact hs.kinds i d a hw
    · rw [List.getElem?_append_right (by omega)] at hw
      have h0 : i - t.vals.length = 0 := by
        rcases h : i - t.vals.length with _ | k
        · rfl
        · rw [h] at hw; simp at hw
      rw [h0] at hw
      simp only [List.getElem?_cons_zero, Option.some.injEq] at hw
      rcases ho with ho | ho
      · rw [ho.1] at hw; exact ho.2 d a (Option.some.inj hw)
      · rw [ho.1] at hw; cases hw

theorem be64_beNat (b : Bytes) (h : b.length = 8) : be64 (UInt64.ofNat (beNat b)) = b := by
  match b, h with
  | [b0, b1, b2, b3, b4, b5, b6, b7], _ =>
    have := b0.toNat_lt; have := b1.toNat_lt; have := b2.toNat_lt; have := b3.toNat_lt
    have := b4.toNat_lt; have := b5.toNat_lt; have := b6.toNat_lt; have := b7.toNat_lt
    simp only [beNat, be64, List.foldl]
    have e : ∀ (x : Nat) (k : UInt64) (c : UInt8), ((UInt64.ofNat x).toNat >>> (k.toNat % 64)) % 256 = c.toNat →
        (UInt64.ofNat x >>> k).toUInt8 = c := by
      intro x k c h
      apply UInt8.toNat_inj.1
      rw [← h]
      simp [UInt64.toNat_shiftRight]
    simp only [List.cons.injEq, and_true]
    refine ⟨?_, ?_, ?_, ?_, ?_, ?_, ?_, ?_⟩
    · apply e; simp [Nat.shiftRight_eq_div_pow] <;> omega
    · apply e; simp [Nat.shiftRight_eq_div_pow] <;> omega
    · apply e; simp [Nat.shiftRight_eq_div_pow] <;> omega
    · apply e; simp [Nat.shiftRight_eq_div_pow] <;> omega
    · apply e; simp [Nat.shiftRight_eq_div_pow] <;> omega
    · apply e; simp [Nat.shiftRight_eq_div_pow] <;> omega
    · apply e; simp [Nat.shiftRight_eq_div_pow] <;> omega
    · apply UInt8.toNat_inj.1; simp

theorem sound_readF64 : Sound t readF64 (fun b a t' => b = be64 a ∧ t' = t) := by
  unfold readF64
  refine (sound_readFull 8).bind fun b a t' h => ?_
  obtain ⟨rfl, rfl, hl⟩ := h
  refine Sound.pure ⟨?_, rfl⟩
  rw [List.append_nil]
  exact (be64_beNat b hl).symm

theorem sound_mapErr {α} {m : GoM St α} {e : Err} {R : Bytes → α → Seen → Prop} (h : Sound t m R) : Sound t (mapErr e m) R := by
  intro s a s' hs he
  unfold mapErr at he
  rcases hm : m s with ⟨r, s1⟩
  rw [hm] at he
  cases r with
  | ok x => exact h s a s' hs (by rw [hm]; exact he)
  | err e => simp at he
  | panic => simp at he
  | diverge => simp at he

theorem seconds_ok (f : UInt64) : Seconds f (F64.toInt64 (F64.div1000 f)) := by
  intro n hf hn h
  rw [F64.seconds_isInt f n hf hn]
  have ht : Int.tdiv n 1000 = n / 1000 := by
    rcases h with h | h
    · exact Int.tdiv_eq_ediv_of_nonneg h
    · exact Int.tdiv_eq_ediv_of_dvd (Int.dvd_of_emod_eq_zero h)
  rw [ht]
  omega

theorem sound_decodeDate : Sound t decodeDate (fun b a t' => Read false t (8 :: b) a t') := by
  unfold decodeDate
  refine sound_decodeUint29.bind fun b a t' h => ?_
  obtain ⟨isRef, n⟩ := a
  obtain ⟨rfl, h⟩ := h
  simp only at h ⊢
  refine Sound.ite (fun hr => ?_) fun hr => ?_
  · rw [if_pos hr] at h
    refine (sound_objRef _).bind fun c v t'' hv => ?_
    obtain ⟨rfl, rfl, hlt, hv⟩ := hv
    cases v <;> try exact Sound.fail
    refine Sound.pure ?_
    rcases hv with ⟨hv, _⟩ | ⟨_, hv | hv⟩
    · simpa using Read.again (m := 8) h hv rfl
    · cases hv
    · cases hv
  · rw [if_neg hr] at h
    refine (sound_mapErr sound_readF64).bind fun c f t'' hf => ?_
    obtain ⟨rfl, rfl⟩ := hf
    refine (sound_pushObj _ _ (.inl ⟨rfl, by simp⟩)).bind fun d _ t3 hd => ?_
    obtain ⟨rfl, rfl⟩ := hd
    refine Sound.pure ?_
    simpa using Read.date (strict := false) h (seconds_ok f) (by simp)

theorem sound_readPadded (n : Nat) : Sound t (readPadded n) (fun b a t' => t' = t ∧ b.length ≤ n ∧ (n ≠ 0 → b ≠ []) ∧
    a = b ++ List.replicate (n - b.length) 0) := by
  unfold readPadded
  refine (sound_rawRead n).bind fun b a t' h => ?_
  obtain ⟨rfl, rfl, h1, h2⟩ := h
  refine Sound.pure ⟨rfl, ?_, ?_, ?_⟩ <;> simpa

/-- XML documents and byte arrays, without the marker. -/
theorem sound_blob {m : UInt8} {g : Bytes → Val} (hg : ∀ x, Blob m x (g x)) (hg' : ∀ x d a, g x ≠ .ecma d a) {n : UInt32} (hn : n ≠ 0) {b : Bytes} (h : IsU29 b (2 * n.toNat + 1)) :
    Sound t (readPadded n.toNat >>= fun x => pushObj (g x) >>= fun _ => pure (g x)) (fun c y t' => Read false t (m :: (b ++ c)) y t') := by
  have hn0 : n.toNat ≠ 0 := fun h0 => hn (UInt32.toNat_inj.1 h0)
  refine (sound_readPadded n.toNat).bind fun c x t' hx => ?_
  obtain ⟨rfl, h1, h2, rfl⟩ := hx
  refine (sound_pushObj _ _ (.inl ⟨rfl, hg' _⟩)).bind fun d _ t3 hd => ?_
  obtain ⟨rfl, rfl⟩ := hd
  refine Sound.pure ?_
  simp only [List.append_nil]
  by_cases he : c.length = n.toNat
  · rw [he, Nat.sub_self, List.replicate_zero, List.append_nil]
    exact .blob (by rw [he]; exact h) (h2 hn0) (hg c)
  · exact .cut rfl h (h2 hn0) (by omega) (hg _)

theorem sound_decodeXmlDoc (m : UInt8) (hm : m = 7 ∨ m = 11) : Sound t decodeXmlDoc (fun b a t' => Read false t (m :: b) a t') := by
  have hg : ∀ x, Blob m x (.str x) := by rcases hm with rfl | rfl <;> intro x <;> constructor
  unfold decodeXmlDoc
  refine sound_decodeUint29.bind fun b a t' h => ?_
  obtain ⟨isRef, n⟩ := a
  obtain ⟨rfl, h⟩ := h
  simp only at h ⊢
  refine Sound.ite (fun hr => ?_) fun hr => ?_
  · rw [if_pos hr] at h
    refine (sound_objRef _).bind fun c v t'' hv => ?_
    obtain ⟨rfl, rfl, hlt, hv⟩ := hv
    cases v <;> try exact Sound.fail
    refine Sound.pure ?_
    rcases hv with ⟨hv, _⟩ | ⟨_, hv | hv⟩
    · simpa using Read.again (m := m) h hv (by simp [KindOk, hm])
    · cases hv
    · cases hv
  · rw [if_neg hr] at h
    refine Sound.ite (fun h0 => Sound.pure ?_) fun h0 => ?_
    · rw [List.append_nil]
      rw [h0] at h
      exact .empty rfl h (hg [])
    · exact sound_blob hg (by simp) h0 h

theorem sound_decodeByteArray : Sound t decodeByteArray (fun b a t' => Read false t (12 :: b) a t') := by
  unfold decodeByteArray
  refine sound_decodeUint29.bind fun b a t' h => ?_
  obtain ⟨isRef, n⟩ := a
  obtain ⟨rfl, h⟩ := h
  simp only at h ⊢
  refine Sound.ite (fun hr => ?_) fun hr => ?_
  · rw [if_pos hr] at h
    refine (sound_objRef _).bind fun c v t'' hv => ?_
    obtain ⟨rfl, rfl, hlt, hv⟩ := hv
    cases v <;> try exact Sound.fail
    refine Sound.pure ?_
    rcases hv with ⟨hv, _⟩ | ⟨_, hv | hv⟩
    · simpa using Read.again (m := 12) h hv (by simp [KindOk])
    · cases hv
    · cases hv
  · rw [if_neg hr] at h
    refine Sound.ite (fun h0 => Sound.pure ?_) fun h0 => ?_
    · rw [List.append_nil]
      rw [h0] at h
      exact .empty rfl h (.bytes [])
    · exact sound_blob (g := Val.bytes) .bytes (by simp) h0 h

theorem readStr_add {o : Option Val} {b k t'} (h : ReadStr t b k t') : ReadStr (t.add o) b k (t'.add o) := by
  cases h with
  | empty h => exact .empty h
  | full h h' => exact .full h h'
  | ref h h' => exact .ref h h'

variable {d : GoM St Val}

/-- The decoder of the parts is sound. -/
def Decodes (d : GoM St Val) : Prop := ∀ t, Sound t d (fun b v t' => Read false t b v t')

theorem sound_diverge {α} {R : Bytes → α → Seen → Prop} : Sound t GoM.diverge R := by
  intro s a s' hs he
  simp [GoM.diverge] at he

theorem sound_assocLoop (hd : Decodes d) (n : Nat) : ∀ (t : Seen) (key : Bytes) (acc : List (Bytes × Val)),
    Sound t (assocLoop d n key acc) (fun b a t' => ∃ l, a = Amf0.setAll acc l ∧
      ∀ t0 b0, ReadStr t0 b0 key t → ReadMembers false t0 (b0 ++ b) l t') := by
  induction n with
  | zero => intro t key acc; exact sound_diverge
  | succ n ih =>
    intro t key acc
    rw [assocLoop]
    refine Sound.ite (fun hk => Sound.pure ⟨[], rfl, fun t0 b0 h => ?_⟩) fun hk => ?_
    · rw [List.append_nil]
      exact .done (hk ▸ h)
    · refine (hd t).bind fun b v t1 hv => ?_
      refine sound_decodeString.bind fun c key' t2 hs => ?_
      refine (ih t2 key' (mapSet acc key v)).mono fun e a t3 h => ?_
      obtain ⟨l, rfl, h⟩ := h
      refine ⟨(key, v) :: l, rfl, fun t0 b0 h0 => ?_⟩
      exact .more h0 hk hv (h _ _ hs)

theorem sound_denseLoop (hd : Decodes d) (n : Nat) : ∀ (t : Seen) (acc : List Val),
    Sound t (denseLoop d n acc) (fun b a t' => ∃ xs, a = acc ++ xs ∧ xs.length = n ∧ ReadAll false t b xs t') := by
  induction n with
  | zero => intro t acc; exact Sound.pure ⟨[], (List.append_nil _).symm, rfl, .nil⟩
  | succ n ih =>
    intro t acc
    refine (hd t).bind fun b v t1 hv => ?_
    refine (ih t1 (acc ++ [v])).mono fun e a t3 h => ?_
    obtain ⟨xs, rfl, h1, h2⟩ := h
    exact ⟨v :: xs, by simp, by simp [h1], .cons hv h2⟩

theorem sound_propVals (hd : Decodes d) (ks : List Bytes) : ∀ (t : Seen) (acc : List (Bytes × Val)),
    Sound t (propVals d ks acc) (fun b a t' => ∃ vs, a = Amf0.setAll acc (ks.zip vs) ∧ vs.length = ks.length ∧ ReadAll false t b vs t') := by
  induction ks with
  | nil => intro t acc; exact Sound.pure ⟨[], rfl, rfl, .nil⟩
  | cons k ks ih =>
    intro t acc
    refine (hd t).bind fun b v t1 hv => ?_
    refine (ih t1 (mapSet acc k v)).mono fun e a t3 h => ?_
    obtain ⟨xs, rfl, h1, h2⟩ := h
    exact ⟨v :: xs, rfl, by simp [h1], .cons hv h2⟩

theorem sound_propNames (n : Nat) : ∀ (t : Seen) (acc : List Bytes),
    Sound t (propNames n acc) (fun b a t' => ∃ ks, a = acc ++ ks ∧ ks.length = n ∧ ReadNames t b ks t') := by
  induction n with
  | zero => intro t acc; exact Sound.pure ⟨[], (List.append_nil _).symm, rfl, .nil⟩
  | succ n ih =>
    intro t acc
    refine sound_decodeString.bind fun b v t1 hv => ?_
    refine (ih t1 (acc ++ [v])).mono fun e a t3 h => ?_
    obtain ⟨xs, rfl, h1, h2⟩ := h
    exact ⟨v :: xs, by simp, by simp [h1], .cons hv h2⟩

theorem and1_toNat (n : UInt32) : (n &&& 1 = 0) ↔ n.toNat % 2 = 0 := by
  rw [← UInt32.toNat_inj, UInt32.toNat_and]
  show n.toNat &&& 1 = 0 ↔ _
  rw [Nat.and_one_is_mod]

theorem and_ne_one (n k : UInt32) (h : k.toNat % 2 = 0) : (n &&& k == 1) = false := by
  rw [beq_eq_false_iff_ne]
  intro he
  have := congrArg UInt32.toNat he
  rw [UInt32.toNat_and] at this
  have h2 : (n.toNat &&& k.toNat) % 2 = 1 := by rw [this]; rfl
  rw [← Nat.and_one_is_mod, Nat.and_assoc, Nat.and_one_is_mod, h, Nat.and_zero] at h2
  cases h2

theorem sound_decodeTrait (n : UInt32) {u : Bytes} (hu : IsU29 u (2 * n.toNat + 1)) :
    Sound t (decodeTrait n) (fun b a t' => ∃ flags, ReadClass t (u ++ b) flags a.properties t' ∧ a.externalizable = false ∧ a.dynamic = false) := by
  unfold decodeTrait
  refine Sound.ite (fun hr => ?_) fun hr => ?_
  · rw [and1_toNat] at hr
    intro s x s' hs he
    rw [GoM.bind_apply, GoM.get_apply] at he
    simp only at he
    split at he
    · simp at he
    · rename_i hl
      have hsh : (n >>> 1).toNat = n.toNat / 2 := by
        rw [UInt32.toNat_shiftRight]; exact Nat.shiftRight_eq_div_pow _ 1
      rw [hsh] at he hl
      have hx : s.traits[n.toNat / 2]? = some s.traits[n.toNat / 2] := List.getElem?_eq_getElem (by omega)
      have hi : goIndex s.traits ((n.toNat / 2 : Nat) : Int) = .ok s.traits[n.toNat / 2] := by
        unfold goIndex
        rw [if_neg (by omega)]
        simp only [Int.toNat_natCast, hx]
      rw [GoM.lift_apply, hi] at he
      simp only [Prod.mk.injEq, Res.ok.injEq] at he
      obtain ⟨rfl, rfl⟩ := he
      have hc := congrArg (·[n.toNat / 2]?) hs.classes
      simp only [List.getElem?_map, hx, Option.map_some] at hc
      rcases hv : t.classes[n.toNat / 2]? with _ | ⟨flags, ks⟩
      · rw [hv] at hc; simp at hc
      · rw [hv] at hc
        simp only [Option.map_some, Option.some.injEq] at hc
        refine ⟨[], t, rfl, ⟨flags, ?_, hs.plain _ (List.getElem_mem _)⟩, hs, rfl⟩
        rw [List.append_nil, hc]
        exact .ref (i := n.toNat / 2) (by rw [show 4 * (n.toNat / 2) + 1 = 2 * n.toNat + 1 by omega]; exact hu) hv
  · rw [and1_toNat] at hr
    refine sound_decodeString.bind fun b name t1 h1 => ?_
    refine (sound_propNames _ _ []).bind fun c ks t2 h2 => ?_
    obtain ⟨ks', hks, hlen, h2⟩ := h2
    obtain rfl : ks = ks' := hks
    intro s x s' hs he
    rw [GoM.bind_apply, GoM.modify_apply] at he
    simp only [GoM.pure_apply, Prod.mk.injEq, Res.ok.injEq] at he
    obtain ⟨rfl, rfl⟩ := he
    have hsh : (n >>> 3).toNat = n.toNat / 8 := by
      rw [UInt32.toNat_shiftRight]; exact Nat.shiftRight_eq_div_pow _ 3
    rw [hsh] at hlen
    have e2 := and_ne_one n 2 rfl
    have e4 := and_ne_one n 4 rfl
    refine ⟨[], { t2 with classes := t2.classes ++ [(n.toNat / 2 % 4 != 0, ks)] }, rfl, ⟨n.toNat / 2 % 4 != 0, ?_, e2, e4⟩, ⟨hs.strs, hs.len, hs.vals, hs.lost, ?_, ?_, hs.kinds⟩, rfl⟩
    · show ReadClass t (u ++ (b ++ (c ++ []))) _ ks _
      rw [List.append_nil]
      refine .new ?_ (by omega) h1 h2
      rw [hlen, show 16 * (n.toNat / 8) + 4 * (n.toNat / 2 % 4) + 3 = 2 * n.toNat + 1 by omega]
      exact hu
    · simp [hs.classes]
    · intro k hk
      rcases List.mem_append.1 hk with hk | hk
      · exact hs.plain k hk
      · rw [List.mem_singleton] at hk
        rw [hk]
        exact ⟨e2, e4⟩

theorem sound_decodeArray (hd : Decodes d) (fuel : Nat) : Sound t (decodeArray d fuel) (fun b a t' => Read false t (9 :: b) a t') := by
  unfold decodeArray
  refine sound_decodeUint29.bind fun b a t' h => ?_
  obtain ⟨isRef, n⟩ := a
  obtain ⟨rfl, h⟩ := h
  simp only at h ⊢
  refine Sound.ite (fun hr => ?_) fun hr => ?_
  · rw [if_pos hr] at h
    refine (sound_objRef _).bind fun c v t'' hv => ?_
    obtain ⟨rfl, rfl, hlt, hv⟩ := hv
    cases v <;> try exact Sound.fail
    refine Sound.pure ?_
    rcases hv with ⟨hv, hne⟩ | ⟨hl, hv | hv⟩
    · exact absurd rfl (hne _ _)
    · cases hv
    · simpa using Read.lost (m := 9) rfl (.inl rfl) h hl (.inl hv)
  · rw [if_neg hr] at h
    refine sound_decodeString.bind fun c key t1 hk => ?_
    refine (sound_pushObj _ none (.inr ⟨rfl, .inr rfl⟩)).bind fun e _ t2 he => ?_
    obtain ⟨rfl, rfl⟩ := he
    refine (sound_assocLoop hd _ _ _ _).bind fun e as t3 ha => ?_
    obtain ⟨l, rfl, ha⟩ := ha
    refine (sound_denseLoop hd _ _ _).bind fun f xs t4 hx => ?_
    obtain ⟨xs, rfl, hlen, hx⟩ := hx
    refine Sound.pure ?_
    simp only [List.append_nil, List.nil_append]
    rw [Amf0.setAll_nil, ← List.append_assoc c]
    exact .arr (by rw [hlen]; exact h) (ha _ _ (readStr_add hk)) hx

theorem sound_decodeObject (H : Handlers) (hd : Decodes d) (fuel : Nat) : Sound t (decodeObject H d fuel) (fun b a t' => Read false t (10 :: b) a t') := by
  unfold decodeObject
  refine sound_decodeUint29.bind fun b a t' h => ?_
  obtain ⟨isRef, n⟩ := a
  obtain ⟨rfl, h⟩ := h
  simp only at h ⊢
  refine Sound.ite (fun hr => ?_) fun hr => ?_
  · rw [if_pos hr] at h
    refine (sound_objRef _).mono fun c v t'' hv => ?_
    obtain ⟨rfl, rfl, hlt, hv⟩ := hv
    rw [List.append_nil]
    rcases hv with ⟨hv, hne⟩ | ⟨hl, hv | hv⟩
    · exact .stray rfl h hv
    · exact .lost rfl (.inr rfl) h hl (.inr ⟨rfl, hv⟩)
    · exact .lost rfl (.inr rfl) h hl (.inl hv)
  · rw [if_neg hr] at h
    refine (sound_decodeTrait n h).bind fun c tr t1 hc => ?_
    obtain ⟨flags, hc, e1, e2⟩ := hc
    refine (sound_pushObj _ none (.inr ⟨rfl, .inl rfl⟩)).bind fun e _ t2 he => ?_
    obtain ⟨rfl, rfl⟩ := he
    rw [e1, e2]
    simp only [Bool.false_eq_true, if_false]
    refine (sound_propVals hd _ _ _).bind fun f o t3 ho => ?_
    obtain ⟨vs, rfl, hl, ho⟩ := ho
    refine Sound.pure ?_
    simp only [List.append_nil, List.nil_append]
    rw [Amf0.setAll_nil, ← List.append_assoc]
    exact .obj hc (by simp) ho hl

theorem sound_branch (H : Handlers) (fuel : Nat) (hd : Decodes (dec H fuel)) (m : UInt8) :
    Sound t (branch H fuel m) (fun b a t' => Read false t (m :: b) a t') := by
  unfold branch
  refine Sound.ite (fun h => Sound.pure ?_) fun _ => ?_
  · rcases h with rfl | rfl
    · exact .undefined
    · exact .null
  refine Sound.ite (fun h => Sound.pure (h ▸ .no)) fun _ => ?_
  refine Sound.ite (fun h => Sound.pure (h ▸ .yes)) fun _ => ?_
  refine Sound.ite (fun h => h ▸ ?_) fun _ => ?_
  · refine sound_readUint29.bind fun b a t' h => ?_
    obtain ⟨h, rfl⟩ := h
    refine Sound.pure ?_
    rw [List.append_nil]
    exact .int h (by simp)
  refine Sound.ite (fun h => h ▸ ?_) fun _ => ?_
  · refine sound_readF64.bind fun b a t' h => ?_
    obtain ⟨rfl, rfl⟩ := h
    refine Sound.pure ?_
    rw [List.append_nil]
    exact .double a
  refine Sound.ite (fun h => h ▸ ?_) fun _ => ?_
  · refine sound_decodeString.bind fun b a t' h => ?_
    refine Sound.pure ?_
    rw [List.append_nil]
    exact .str h
  refine Sound.ite (fun h => h ▸ sound_decodeXmlDoc 7 (.inl rfl)) fun _ => ?_
  refine Sound.ite (fun h => h ▸ sound_decodeDate) fun _ => ?_
  refine Sound.ite (fun h => h ▸ sound_decodeArray hd fuel) fun _ => ?_
  refine Sound.ite (fun h => h ▸ sound_decodeObject H hd fuel) fun _ => ?_
  refine Sound.ite (fun h => h ▸ sound_decodeXmlDoc 11 (.inr rfl)) fun _ => ?_
  refine Sound.ite (fun h => h ▸ sound_decodeByteArray) fun _ => ?_
  exact Sound.fail

theorem sound_dec (H : Handlers) (fuel : Nat) : Decodes (dec H fuel) := by
  induction fuel with
  | zero => intro t; exact sound_diverge
  | succ fuel ih =>
    intro t
    rw [dec_succ]
    refine sound_readByte.bind fun b m t' h => ?_
    obtain ⟨rfl, rfl⟩ := h
    exact sound_branch H fuel ih m

theorem sound_decode (H : Handlers) : Decodes (decode H) := fun t s a s' hs he => sound_dec H _ t s a s' hs he

theorem readAll_snoc {b v t' c t''} {vs : List Val} (h : ReadAll false t b vs t') (hv : Read false t' c v t'') :
    ReadAll false t (b ++ c) (vs ++ [v]) t'' := by
  induction vs generalizing t b with
  | nil => 
    cases h
    simpa using ReadAll.cons hv .nil
  | cons w vs ih =>
    cases h with
    | cons h1 h2 =>
      rw [List.append_assoc]
      exact .cons h1 (ih h2)

theorem sound_batchLoop (hd : Decodes d) (n : Nat) : ∀ (t t0 : Seen) (b0 : Bytes) (ret : List Val) (s : St), ReadAll false t0 b0 ret t → Holds t s →
    ∀ vs e s', batchLoop d n ret s = (.ok (vs, e), s') →
    ∃ b rest t', s.data = b ++ rest ∧ ReadAll false t0 (b0 ++ b) vs t' := by
  induction n with
  | zero => intro t t0 b0 ret s h hs vs e s' he; simp [batchLoop, GoM.diverge] at he
  | succ n ih =>
    intro t t0 b0 ret s h hs vs e s' he
    rw [batchLoop] at he
    rcases hm : d s with ⟨r, s1⟩
    simp only [hm] at he
    cases r with
    | ok a =>
      obtain ⟨b, t1, e1, r1, hs1, _⟩ := hd t s a s1 hs hm
      obtain ⟨c, rest, t2, e2, r2⟩ := ih t1 t0 (b0 ++ b) (ret ++ [a]) s1 (readAll_snoc h r1) hs1 vs e s' he
      exact ⟨b ++ c, rest, t2, by rw [e1, e2, List.append_assoc], by rw [← List.append_assoc]; exact r2⟩
    | err e' =>
      have : vs = ret := by cases e' <;> simp_all
      rw [this]
      exact ⟨[], s.data, t, rfl, by rw [List.append_nil]; exact h⟩
    | panic => simp at he
    | diverge => simp at he

end Verif.Amf3
