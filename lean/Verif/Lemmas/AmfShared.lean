import Verif.Model.Amf0Shared
import Verif.Spec.AmfShared
import Verif.Spec.AmfEncode
import Verif.Lemmas.AmfFrame
import Verif.Lemmas.AmfSize
import Verif.Lemmas.AmfAccept
import Verif.Lemmas.Amf0
/-! # Decoded AMF0 values and their encodings -/
namespace Verif.Amf0
open Verif.Amf Verif.Spec.Amf Verif.Spec.Amf0

mutual
/-- Decoded values: `P` holds for the shared maps. -/
def G (P : Nat → Prop) : Val → Prop
  | .nil | .bool _ | .f64 _ => True
  | .shared n => P n
  | .str s => s.length < 2 ^ 32
  | .arr xs => xs.length < 2 ^ 32 ∧ GL P xs
  | .obj kvs => (kvs.map Prod.fst).Nodup ∧ GF P kvs
  | .typed t kvs => t.length ≤ 65535 ∧ (kvs.map Prod.fst).Nodup ∧ GF P kvs
  | _ => False
def GL (P : Nat → Prop) : List Val → Prop
  | [] => True
  | v :: vs => G P v ∧ GL P vs
def GF (P : Nat → Prop) : List (Bytes × Val) → Prop
  | [] => True
  | (k, v) :: r => (1 ≤ k.length ∧ k.length ≤ 65535) ∧ G P v ∧ GF P r
end

mutual
theorem G.mono {P Q : Nat → Prop} (h : ∀ n, P n → Q n) : (v : Val) → G P v → G Q v
  | .nil, _ | .bool _, _ | .f64 _, _ => trivial
  | .shared n, hv => h n hv
  | .str _, hv => hv
  | .arr xs, hv => ⟨hv.1, GL.mono h xs hv.2⟩
  | .obj kvs, hv => ⟨hv.1, GF.mono h kvs hv.2⟩
  | .typed _ kvs, hv => ⟨hv.1, hv.2.1, GF.mono h kvs hv.2.2⟩
  | .int _ _, hv | .uint _ _, hv | .bytes _, hv | .time _, hv | .ecma _ _, hv | .other, hv => hv.elim
theorem GL.mono {P Q : Nat → Prop} (h : ∀ n, P n → Q n) : (vs : List Val) → GL P vs → GL Q vs
  | [], _ => trivial
  | v :: vs, hv => ⟨G.mono h v hv.1, GL.mono h vs hv.2⟩
theorem GF.mono {P Q : Nat → Prop} (h : ∀ n, P n → Q n) : (l : List (Bytes × Val)) → GF P l → GF Q l
  | [], _ => trivial
  | (_, v) :: l, hv => ⟨hv.1, G.mono h v hv.2.1, GF.mono h l hv.2.2⟩
end

theorem gf_iff {P} (l : List (Bytes × Val)) : GF P l ↔ ∀ e ∈ l, (1 ≤ e.1.length ∧ e.1.length ≤ 65535) ∧ G P e.2 := by
  induction l with
  | nil => simp [GF]
  | cons a l ih => obtain ⟨k, v⟩ := a; simp [GF, ih, and_assoc]

theorem gl_snoc {P} (l : List Val) (v : Val) (h : GL P l) (hv : G P v) : GL P (l ++ [v]) := by
  induction l with
  | nil => exact ⟨hv, trivial⟩
  | cons a l ih => exact ⟨h.1, ih h.2⟩

theorem gf_set {P} (l : List (Bytes × Val)) (k : Bytes) (v : Val) (h : GF P l) (hk : 1 ≤ k.length ∧ k.length ≤ 65535) (hv : G P v) :
    GF P (mapSet l k v) := by
  rw [gf_iff] at h ⊢
  intro e he
  unfold mapSet at he
  split at he
  · obtain ⟨a, ha, rfl⟩ := List.mem_map.1 he
    split
    · exact ⟨hk, hv⟩
    · exact h a ha
  · rcases List.mem_append.1 he with he | he
    · exact h e he
    · simp only [List.mem_singleton] at he
      subst he
      exact ⟨hk, hv⟩

/-- Entry `n` of the table is a map. -/
def Obj (r : List Ref0) (n : Nat) : Prop := ∃ l, r[n]? = some (.object l)

/-- The entries of the table are decoded values, with or without an AMF3 value to come. -/
structure Inv (s : St) : Prop where
  amf3 : (17 : UInt8) ∉ s.data
  refs : ∀ l, Ref0.object l ∈ s.refs0 → (l.map Prod.fst).Nodup ∧ GF (Obj s.refs0) l

/-- Maps stay maps. -/
def Grows (s s' : St) : Prop := ∀ n, Obj s.refs0 n → Obj s'.refs0 n

def K {α} (m : GoM St α) (Q : St → α → Prop) : Prop := ∀ s a s', Inv s → m s = (.ok a, s') → Inv s' ∧ Grows s s' ∧ Q s' a

namespace K
variable {α β : Type}

theorem bind {m : GoM St α} {f : α → GoM St β} {R : St → α → Prop} {Q : St → β → Prop} (h : K m R)
    (h' : ∀ a s1, R s1 a → ∀ y s', Inv s1 → f a s1 = (.ok y, s') → Inv s' ∧ Grows s1 s' ∧ Q s' y) : K (m >>= f) Q := by
  intro s y s' hs he
  obtain ⟨a, s1, h1, h2⟩ := Amf3.bind_ok he
  obtain ⟨i1, g1, r1⟩ := h s a s1 hs h1
  obtain ⟨i2, g2, r2⟩ := h' a s1 r1 y s' i1 h2
  exact ⟨i2, fun n hn => g2 n (g1 n hn), r2⟩

theorem pure {a : α} {Q : St → α → Prop} (h : ∀ s, Q s a) : K (Pure.pure a) Q := by
  intro s x s' hs he
  cases he
  exact ⟨hs, fun _ h => h, h s⟩

theorem fail {e : Err} {Q : St → α → Prop} : K (GoM.fail e) Q := by
  intro s x s' hs he
  simp [GoM.fail] at he

theorem ite {p : Prop} [Decidable p] {m m' : GoM St α} {Q : St → α → Prop} (h : p → K m Q) (h' : ¬ p → K m' Q) :
    K (if p then m else m') Q := by
  split
  · exact h ‹_›
  · exact h' ‹_›

theorem drop {s : St} (hs : Inv s) (n : Nat) : Inv { s with data := s.data.drop n } :=
  ⟨fun h => hs.amf3 (List.mem_of_mem_drop h), hs.refs⟩

theorem readFull (n : Nat) : K (Amf.readFull n) (fun _ b => b.length = n) := by
  intro s a s' hs he
  unfold Amf.readFull at he
  split at he
  · simp at he
  · split at he
    · simp at he
    · simp only [Prod.mk.injEq, Res.ok.injEq] at he
      obtain ⟨rfl, rfl⟩ := he
      exact ⟨drop hs n, fun _ h => h, by simp; omega⟩

theorem rawRead (n : Nat) : K (Amf.rawRead n) (fun _ b => (17 : UInt8) ∉ b) := by
  intro s a s' hs he
  unfold Amf.rawRead at he
  split at he
  · split at he
    · cases he; exact ⟨hs, fun _ h => h, by simp⟩
    · simp at he
  · simp only [Prod.mk.injEq, Res.ok.injEq] at he
    obtain ⟨rfl, rfl⟩ := he
    exact ⟨drop hs _, fun _ h => h, fun h => hs.amf3 (List.mem_of_mem_take h)⟩

theorem readBytes (n : Nat) : K (Amf.readBytes n) (fun _ b => b.length = n ∧ (17 : UInt8) ∉ b) := by
  refine (rawRead n).bind fun a s1 h1 y s' hi he => ?_
  split at he
  · simp [GoM.fail] at he
  · rename_i hn
    cases he
    exact ⟨hi, fun _ h => h, Decidable.not_not.1 hn, h1⟩

theorem readByte : K Amf.readByte (fun _ b => b ≠ 17) := by
  refine (readBytes 1).bind fun a s1 h1 y s' hi he => ?_
  obtain ⟨x, rfl⟩ : ∃ x, a = [x] := List.length_eq_one_iff.1 h1.1
  have : GoM.lift (goIndex [x] 0) s1 = (.ok x, s1) := rfl
  rw [this] at he
  cases he
  exact ⟨hi, fun _ h => h, fun h => h1.2 (by simp [h])⟩

end K

theorem k_nextByte (m : UInt8) : K (nextByteMustBe m) (fun _ _ => True) := by
  refine K.readByte.bind fun a s1 h1 y s' hi he => ?_
  split at he
  · simp [GoM.fail] at he
  · cases he; exact ⟨hi, fun _ h => h, trivial⟩

theorem beNat_lt (b : Bytes) : beNat b < 256 ^ b.length := by
  have h : ∀ (b : Bytes) (a : Nat), b.foldl (fun a x => a * 256 + x.toNat) a < (a + 1) * 256 ^ b.length := by
    intro b
    induction b with
    | nil => intro a; simp
    | cons x b ih =>
      intro a
      have h1 := ih (a * 256 + x.toNat)
      have h2 : (a * 256 + x.toNat + 1) * 256 ^ b.length ≤ (a + 1) * 256 * 256 ^ b.length :=
        Nat.mul_le_mul_right _ (by have := x.toNat_lt; omega)
      rw [List.foldl_cons, List.length_cons, Nat.pow_succ, Nat.mul_comm (256 ^ b.length) 256, ← Nat.mul_assoc]
      omega
  simpa [beNat] using h b 0

theorem k_decodeString : K decodeString (fun _ b => b.length ≤ 65535) := by
  refine K.bind (R := fun _ n => n < 65536) ?_ fun n s1 h1 y s' hi he => ?_
  · refine (K.readFull 2).bind fun b s1 h1 y s' hi he => ?_
    cases he
    refine ⟨hi, fun _ h => h, ?_⟩
    have := beNat_lt b
    rw [h1] at this; simpa using this
  · obtain ⟨i, g, h⟩ := K.readBytes n s1 y s' hi he
    exact ⟨i, g, by omega⟩

theorem k_u32 : K readU32 (fun _ n => n < 2 ^ 32) := by
  refine (K.readFull 4).bind fun b s1 h1 y s' hi he => ?_
  cases he
  refine ⟨hi, fun _ h => h, ?_⟩
  have := beNat_lt b
  rw [h1] at this; simpa using this

theorem k_decodeLongString : K decodeLongString (fun _ b => b.length < 2 ^ 32) := by
  refine k_u32.bind fun n s1 h1 y s' hi he => ?_
  obtain ⟨i, g, h⟩ := K.readBytes n s1 y s' hi he
  exact ⟨i, g, by omega⟩

theorem grows_set (r : List Ref0) (id : Nat) (l : List (Bytes × Val)) (n : Nat) (h : Obj r n) : Obj (r.set id (.object l)) n := by
  obtain ⟨k, hk⟩ := h
  by_cases e : id = n
  · subst e
    have hl : id < r.length := by
      rw [List.getElem?_eq_some_iff] at hk; exact hk.1
    exact ⟨l, by simp [List.getElem?_set, hl]⟩
  · exact ⟨k, by rw [List.getElem?_set_ne e]; exact hk⟩

theorem grows_push (r : List Ref0) (x : Ref0) (n : Nat) (h : Obj r n) : Obj (r ++ [x]) n := by
  obtain ⟨k, hk⟩ := h
  have hl : n < r.length := by
    rw [List.getElem?_eq_some_iff] at hk; exact hk.1
  exact ⟨k, by rw [List.getElem?_append_left hl]; exact hk⟩

theorem inv_set {s : St} (hs : Inv s) (id : Nat) (l : List (Bytes × Val)) (hn : (l.map Prod.fst).Nodup) (hl : GF (Obj s.refs0) l) :
    Inv { s with refs0 := s.refs0.set id (.object l) } := by
  refine ⟨hs.amf3, fun k hk => ?_⟩
  rcases List.mem_or_eq_of_mem_set hk with hk | hk
  · exact ⟨(hs.refs k hk).1, GF.mono (grows_set s.refs0 id l) k (hs.refs k hk).2⟩
  · cases hk
    exact ⟨hn, GF.mono (grows_set s.refs0 id l) l hl⟩

theorem inv_push {s : St} (hs : Inv s) (x : Ref0) (hx : ∀ l, x = .object l → l = []) :
    Inv { s with refs0 := s.refs0 ++ [x] } := by
  refine ⟨hs.amf3, fun k hk => ?_⟩
  rcases List.mem_append.1 hk with hk | hk
  · exact ⟨(hs.refs k hk).1, GF.mono (grows_push s.refs0 x) k (hs.refs k hk).2⟩
  · simp only [List.mem_singleton] at hk
    rw [hx k hk.symm]
    exact ⟨by simp, trivial⟩

theorem k_objLoop {d : GoM St Val} (hd : K d (fun s v => G (Obj s.refs0) v)) (id fuel : Nat) : ∀ acc s a s', Inv s → Obj s.refs0 id →
    (acc.map Prod.fst).Nodup → GF (Obj s.refs0) acc → objLoop d id fuel acc s = (.ok a, s') →
    Inv s' ∧ Grows s s' ∧ (a.map Prod.fst).Nodup ∧ GF (Obj s'.refs0) a := by
  induction fuel with
  | zero => intro acc s a s' _ _ _ _ he; simp [objLoop, GoM.diverge] at he
  | succ fuel ih =>
    intro acc s a s' hi ho hn hg he
    unfold objLoop at he
    obtain ⟨k, s1, h1, he⟩ := Amf3.bind_ok he
    obtain ⟨i1, g1, hk⟩ := k_decodeString s k s1 hi h1
    split at he
    · obtain ⟨_, s2, h2, he⟩ := Amf3.bind_ok he
      obtain ⟨i2, g2, _⟩ := k_nextByte 9 s1 _ s2 i1 h2
      cases he
      exact ⟨i2, fun n h => g2 n (g1 n h), hn, GF.mono (fun n h => g2 n (g1 n h)) _ hg⟩
    · rename_i hne
      obtain ⟨v, s2, h2, he⟩ := Amf3.bind_ok he
      obtain ⟨i2, g2, hv⟩ := hd s1 v s2 i1 h2
      obtain ⟨_, s3, h3, he⟩ := Amf3.bind_ok he
      have hk' : 1 ≤ k.length := List.length_pos_iff.2 hne
      have hg' := gf_set acc k v (GF.mono (fun n h => g2 n (g1 n h)) _ hg) ⟨hk', hk⟩ hv
      have hn' := mapSet_keys acc k v hn
      cases h3
      have i3 := inv_set i2 id _ hn' hg'
      have g3 := grows_set s2.refs0 id (mapSet acc k v)
      obtain ⟨i4, g4, r⟩ := ih _ _ a s' i3 (g3 id (g2 id (g1 id ho))) hn' (GF.mono g3 _ hg') he
      exact ⟨i4, fun n h => g4 n (g3 n (g2 n (g1 n h))), r⟩

theorem k_decodeObject {d : GoM St Val} (hd : K d (fun s v => G (Obj s.refs0) v)) (fuel : Nat) :
    K (decodeObject d fuel) (fun s a => (a.map Prod.fst).Nodup ∧ GF (Obj s.refs0) a) := by
  intro s a s' hi he
  unfold decodeObject at he
  obtain ⟨id, s1, h1, he⟩ := Amf3.bind_ok he
  simp only [pushRef, Prod.mk.injEq, Res.ok.injEq] at h1
  obtain ⟨rfl, rfl⟩ := h1
  have i1 := inv_push hi (.object []) (by simp)
  obtain ⟨i2, g2, r⟩ := k_objLoop hd _ fuel [] _ a s' i1 ⟨[], by simp⟩ (by simp) trivial he
  exact ⟨i2, fun n h => g2 n (grows_push s.refs0 _ n h), r⟩

theorem k_arrLoop {d : GoM St Val} (hd : K d (fun s v => G (Obj s.refs0) v)) (n : Nat) : ∀ acc s a s', Inv s → GL (Obj s.refs0) acc →
    arrLoop d n acc s = (.ok a, s') → Inv s' ∧ Grows s s' ∧ a.length = acc.length + n ∧ GL (Obj s'.refs0) a := by
  induction n with
  | zero => intro acc s a s' hi hg he; cases he; exact ⟨hi, fun _ h => h, rfl, hg⟩
  | succ n ih =>
    intro acc s a s' hi hg he
    unfold arrLoop at he
    obtain ⟨v, s1, h1, he⟩ := Amf3.bind_ok he
    obtain ⟨i1, g1, hv⟩ := hd s v s1 hi h1
    obtain ⟨i2, g2, hl, r⟩ := ih _ s1 a s' i1 (gl_snoc acc v (GL.mono g1 _ hg) hv) he
    exact ⟨i2, fun m h => g2 m (g1 m h), by simp at hl; omega, r⟩

theorem k_decodeReference : K decodeReference (fun s v => G (Obj s.refs0) v) := by
  refine K.bind (R := fun _ _ => True) ?_ fun n s1 _ y s' hi he => ?_
  · refine (K.readFull 2).bind fun b s1 h1 y s' hi he => ?_
    cases he
    exact ⟨hi, fun _ h => h, trivial⟩
  · obtain ⟨s2, s3, h1, he⟩ := Amf3.bind_ok he
    cases h1
    split at he
    · simp [GoM.fail] at he
    · obtain ⟨r, s4, h2, he⟩ := Amf3.bind_ok he
      have hr : s1.refs0[n]? = some r ∧ s4 = s1 := by
        unfold goIndex at h2
        rcases hx : s1.refs0[n]? with _ | x
        · simp [hx, GoM.lift] at h2
        · simp only [hx, GoM.lift, if_neg (show ¬ ((n : Int) < 0) by omega)] at h2
          simp at h2
          rw [hx] at h2
          simp at h2
          exact ⟨by rw [h2.1], h2.2.symm⟩
      obtain ⟨hr, rfl⟩ := hr
      cases r with
      | object l => cases he; exact ⟨hi, fun _ h => h, l, hr⟩
      | nilArray => cases he; exact ⟨hi, fun _ h => h, by simp [G, GL]⟩
      | zeroTyped => cases he; exact ⟨hi, fun _ h => h, by simp [G, GF]⟩

theorem k_branch (fuel : Nat) (ih : K (dec fuel) (fun s v => G (Obj s.refs0) v)) (m : UInt8) (hm : m ≠ 17) :
    K (branch fuel m) (fun s v => G (Obj s.refs0) v) := by
  unfold branch
  refine K.ite (fun _ => ?_) fun _ => ?_
  · refine K.bind (K.readFull 8) fun b s1 _ y s' hi he => ?_
    cases he; exact ⟨hi, fun _ h => h, trivial⟩
  refine K.ite (fun _ => ?_) fun _ => ?_
  · refine K.bind K.readByte fun b s1 _ y s' hi he => ?_
    cases he; exact ⟨hi, fun _ h => h, trivial⟩
  refine K.ite (fun _ => ?_) fun _ => ?_
  · refine K.bind k_decodeString fun b s1 hb y s' hi he => ?_
    cases he; exact ⟨hi, fun _ h => h, by simp only [G]; omega⟩
  refine K.ite (fun _ => ?_) fun _ => ?_
  · refine K.bind (k_decodeObject ih fuel) fun b s1 hb y s' hi he => ?_
    cases he; exact ⟨hi, fun _ h => h, hb⟩
  refine K.ite (fun _ => ?_) fun _ => ?_
  · exact K.fail
  refine K.ite (fun _ => ?_) fun _ => ?_
  · exact K.pure fun _ => trivial
  refine K.ite (fun _ => ?_) fun _ => ?_
  · exact k_decodeReference
  refine K.ite (fun _ => ?_) fun _ => ?_
  · refine K.bind (R := fun s a => (a.map Prod.fst).Nodup ∧ GF (Obj s.refs0) a) ?_ fun b s1 hb y s' hi he => ?_
    · exact K.bind k_u32 fun n s1 _ y s' hi he => k_decodeObject ih fuel s1 y s' hi he
    · cases he; exact ⟨hi, fun _ h => h, hb⟩
  refine K.ite (fun _ => ?_) fun _ => ?_
  · refine K.bind (R := fun s a => a.length < 2 ^ 32 ∧ GL (Obj s.refs0) a) ?_ fun b s1 hb y s' hi he => ?_
    · refine K.bind k_u32 fun n s1 hn y s' hi he => ?_
      obtain ⟨_, s2, h2, he⟩ := Amf3.bind_ok he
      simp only [pushRef, Prod.mk.injEq, Res.ok.injEq] at h2
      obtain ⟨-, rfl⟩ := h2
      obtain ⟨i2, g2, hl, r⟩ := k_arrLoop ih n [] _ y s' (inv_push hi .nilArray (by simp)) trivial he
      refine ⟨i2, fun m h => g2 m (grows_push _ _ m h), ?_, r⟩
      simp at hl; omega
    · cases he; exact ⟨hi, fun _ h => h, hb⟩
  refine K.ite (fun _ => ?_) fun _ => ?_
  · refine K.bind (R := fun _ _ => True) ?_ fun b s1 hb y s' hi he => ?_
    · refine K.bind (K.readFull 8) fun n s1 hn y s' hi he => ?_
      refine K.bind (K.readBytes 2) (Q := fun _ _ => True) (fun b s1 hb y s' hi he => ?_) s1 y s' hi he
      cases he; exact ⟨hi, fun _ h => h, trivial⟩
    · cases he; exact ⟨hi, fun _ h => h, trivial⟩
  refine K.ite (fun _ => ?_) fun _ => ?_
  · refine K.bind k_decodeLongString fun b s1 hb y s' hi he => ?_
    cases he; exact ⟨hi, fun _ h => h, hb⟩
  refine K.ite (fun _ => ?_) fun _ => ?_
  · exact K.fail
  refine K.ite (fun _ => ?_) fun _ => ?_
  · refine K.bind k_decodeLongString fun b s1 hb y s' hi he => ?_
    cases he; exact ⟨hi, fun _ h => h, hb⟩
  refine K.ite (fun _ => ?_) fun _ => ?_
  · refine K.bind (R := fun s (a : Bytes × List (Bytes × Val)) => a.1.length ≤ 65535 ∧ (a.2.map Prod.fst).Nodup ∧ GF (Obj s.refs0) a.2) ?_
      fun b s1 hb y s' hi he => ?_
    · intro s a s' hi he
      unfold decodeTypedObject at he
      obtain ⟨_, s2, h2, he⟩ := Amf3.bind_ok he
      simp only [pushRef, Prod.mk.injEq, Res.ok.injEq] at h2
      obtain ⟨-, rfl⟩ := h2
      have i0 := inv_push hi .zeroTyped (by simp)
      obtain ⟨t, s3, h3, he⟩ := Amf3.bind_ok he
      obtain ⟨i1, g1, ht⟩ := k_decodeString _ t s3 i0 h3
      obtain ⟨o, s4, h4, he⟩ := Amf3.bind_ok he
      obtain ⟨i2, g2, ho⟩ := k_decodeObject ih fuel s3 o s4 i1 h4
      cases he
      exact ⟨i2, fun m h => g2 m (g1 m (grows_push _ _ m h)), ht, ho⟩
    · cases he; exact ⟨hi, fun _ h => h, hb⟩
  refine K.ite (fun h17 => absurd h17 hm) fun _ => ?_
  exact K.fail

theorem k_dec (fuel : Nat) : K (dec fuel) (fun s v => G (Obj s.refs0) v) := by
  induction fuel with
  | zero => intro s a s' _ he; simp [dec, GoM.diverge] at he
  | succ fuel ih =>
    rw [dec_succ]
    exact K.readByte.bind fun m s1 hm y s' hi he => k_branch fuel ih m hm s1 y s' hi he

/-! ## Encoding -/

/-- The maps of the table. -/
def heapOf (r : List Ref0) (n : Nat) : Option (List (Bytes × Val)) :=
  match r[n]? with
  | some (.object l) => some l
  | _ => none

theorem heapOf_some {r n l} (h : heapOf r n = some l) : r[n]? = some (.object l) := by
  unfold heapOf at h
  split at h
  · rename_i k hk; cases h; exact hk
  · cases h

theorem heapOf_obj {r n} (h : Obj r n) : ∃ l, heapOf r n = some l := by
  obtain ⟨l, hl⟩ := h
  exact ⟨l, by simp [heapOf, hl]⟩

mutual
theorem shared_enc {r : List Ref0} {v w} : Stands (heapOf r) v w → ∃ f0, ∀ f, f0 ≤ f → encodeShared r f v = enc w
  | .nil => ⟨1, fun f hf => by obtain ⟨g, rfl⟩ : ∃ g, f = g + 1 := ⟨f - 1, by omega⟩; rfl⟩
  | .bool _ => ⟨1, fun f hf => by obtain ⟨g, rfl⟩ : ∃ g, f = g + 1 := ⟨f - 1, by omega⟩; rfl⟩
  | .f64 _ => ⟨1, fun f hf => by obtain ⟨g, rfl⟩ : ∃ g, f = g + 1 := ⟨f - 1, by omega⟩; rfl⟩
  | .str _ => ⟨1, fun f hf => by obtain ⟨g, rfl⟩ : ∃ g, f = g + 1 := ⟨f - 1, by omega⟩; rfl⟩
  | .arr h => by
    obtain ⟨f0, h0, hl⟩ := shared_encL h
    refine ⟨f0 + 1, fun f hf => ?_⟩
    obtain ⟨g, rfl⟩ : ∃ g, f = g + 1 := ⟨f - 1, by omega⟩
    simp only [encodeShared, enc, h0 g (by omega), hl]
  | .obj h => by
    obtain ⟨f0, h0⟩ := shared_encF h
    refine ⟨f0 + 1, fun f hf => ?_⟩
    obtain ⟨g, rfl⟩ : ∃ g, f = g + 1 := ⟨f - 1, by omega⟩
    simp only [encodeShared, enc, h0 g (by omega)]
  | .typed _ h => by
    obtain ⟨f0, h0⟩ := shared_encF h
    refine ⟨f0 + 1, fun f hf => ?_⟩
    obtain ⟨g, rfl⟩ : ∃ g, f = g + 1 := ⟨f - 1, by omega⟩
    simp only [encodeShared, enc, h0 g (by omega)]
  | .shared hn h => by
    obtain ⟨f0, h0⟩ := shared_encF h
    refine ⟨f0 + 1, fun f hf => ?_⟩
    obtain ⟨g, rfl⟩ : ∃ g, f = g + 1 := ⟨f - 1, by omega⟩
    simp only [encodeShared, enc, heapOf_some hn, h0 g (by omega)]
theorem shared_encL {r : List Ref0} {xs ys} : StandsL (heapOf r) xs ys →
    ∃ f0, (∀ f, f0 ≤ f → sharedL (encodeShared r f) xs = encL ys) ∧ xs.length = ys.length
  | .nil => ⟨0, fun _ _ => rfl, rfl⟩
  | .cons h h' => by
    obtain ⟨f0, h0⟩ := shared_enc h
    obtain ⟨f1, h1, hl⟩ := shared_encL h'
    refine ⟨f0 + f1, fun f hf => ?_, by simp [hl]⟩
    simp only [sharedL, encL, h0 f (by omega), h1 f (by omega)]
theorem shared_encF {r : List Ref0} {l l'} : StandsF (heapOf r) l l' → ∃ f0, ∀ f, f0 ≤ f → sharedF (encodeShared r f) l = encObj l'
  | .nil => ⟨0, fun _ _ => rfl⟩
  | .cons h h' => by
    obtain ⟨f0, h0⟩ := shared_enc h
    obtain ⟨f1, h1⟩ := shared_encF h'
    refine ⟨f0 + f1, fun f hf => ?_⟩
    simp only [sharedF, encObj, h0 f (by omega), h1 f (by omega)]
end

/-- The table holds decoded values. -/
def Good (r : List Ref0) : Prop := ∀ l, Ref0.object l ∈ r → (l.map Prod.fst).Nodup ∧ GF (Obj r) l

mutual
theorem stands_ok {r : List Ref0} (hr : Good r) {v w} : Stands (heapOf r) v w → G (Obj r) v → Encodable w ∧ Plain w
  | .nil, _ | .bool _, _ | .f64 _, _ => ⟨trivial, trivial⟩
  | .str _, h => ⟨h, trivial⟩
  | .arr hs, h => by
    have i := stands_okL hr hs h.2
    exact ⟨⟨by rw [← i.2.2]; exact h.1, i.1⟩, i.2.1⟩
  | .obj hs, h => by
    have i := stands_okF hr hs h.2
    exact ⟨⟨by rw [← i.2.2]; exact h.1, i.1⟩, i.2.1⟩
  | .typed _ hs, h => by
    have i := stands_okF hr hs h.2.2
    exact ⟨⟨h.1, by rw [← i.2.2]; exact h.2.1, i.1⟩, i.2.1⟩
  | .shared hn hs, _ => by
    have hg := hr _ (List.mem_of_getElem? (heapOf_some hn))
    have i := stands_okF hr hs hg.2
    exact ⟨⟨by rw [← i.2.2]; exact hg.1, i.1⟩, i.2.1⟩
theorem stands_okL {r : List Ref0} (hr : Good r) {xs ys} : StandsL (heapOf r) xs ys → GL (Obj r) xs → EncodableL ys ∧ PlainL ys ∧ xs.length = ys.length
  | .nil, _ => ⟨trivial, trivial, rfl⟩
  | .cons h h', hg => by
    have i := stands_ok hr h hg.1
    have j := stands_okL hr h' hg.2
    exact ⟨⟨i.1, j.1⟩, ⟨i.2, j.2.1⟩, by simp [j.2.2]⟩
theorem stands_okF {r : List Ref0} (hr : Good r) {l l'} : StandsF (heapOf r) l l' → GF (Obj r) l →
    EncodableF l' ∧ PlainF l' ∧ l.map Prod.fst = l'.map Prod.fst
  | .nil, _ => ⟨trivial, trivial, rfl⟩
  | .cons h h', hg => by
    have i := stands_ok hr h hg.2.1
    have j := stands_okF hr h' hg.2.2
    exact ⟨⟨hg.1, i.1, j.1⟩, ⟨i.2, j.2.1⟩, by simp [j.2.2]⟩
end

/-! ## Values that are not finite -/

/-- A writer that does not fail. -/
def Works (w : Sink) : Prop := ∀ n, w.plan n = none

def AllDiv {α} (m : GoM Sink α) : Prop := ∀ s, Works s → (m s).1 = .diverge
/-- Succeeds or does not end. -/
def Fine {α} (m : GoM Sink α) : Prop := ∀ s, Works s → (m s).1 = .diverge ∨ ∃ a s', m s = (.ok a, s') ∧ Works s'

theorem Fine.bind {α β} {m : GoM Sink α} {f : α → GoM Sink β} (h : Fine m) (h' : ∀ a, Fine (f a)) : Fine (m >>= f) := by
  intro s hs
  rw [GoM.bind_apply]
  rcases h s hs with hd | ⟨a, s', he, hs'⟩
  · rcases hm : m s with ⟨r, s'⟩
    rw [hm] at hd
    simp only at hd
    subst hd
    exact .inl rfl
  · rw [he]
    exact h' a s' hs'

theorem Fine.pure {α} (a : α) : Fine (Pure.pure a) := fun s hs => .inr ⟨a, s, rfl, hs⟩

theorem Fine.write (b : Bytes) : Fine (Sink.write b) := by
  intro s hs
  refine .inr ⟨(), { s with out := s.out ++ b, calls := s.calls + 1 }, ?_, hs⟩
  simp [Sink.write, hs s.calls]

theorem AllDiv.bind {α β} {m : GoM Sink α} {f : α → GoM Sink β} (h : AllDiv m) : AllDiv (m >>= f) := by
  intro s hs
  rw [GoM.bind_apply]
  have hd := h s hs
  rcases hm : m s with ⟨r, s'⟩
  rw [hm] at hd
  simp only at hd
  subst hd
  rfl

theorem AllDiv.after {α β} {m : GoM Sink α} {f : α → GoM Sink β} (h : Fine m) (h' : ∀ a, AllDiv (f a)) : AllDiv (m >>= f) := by
  intro s hs
  rw [GoM.bind_apply]
  rcases h s hs with hd | ⟨a, s', he, hs'⟩
  · rcases hm : m s with ⟨r, s'⟩
    rw [hm] at hd
    simp only at hd
    subst hd
    rfl
  · rw [he]
    exact h' a s' hs'

theorem fine_opt (m : UInt8) (b : Bool) : Fine (optMarker m b) := by
  unfold optMarker
  split
  · exact (Fine.write _).bind fun _ => Fine.pure _
  · exact Fine.pure _

theorem fine_string (s : Bytes) (b : Bool) : Fine (encodeString s b) :=
  (fine_opt _ _).bind fun _ => (Fine.write _).bind fun _ => (Fine.write _).bind fun _ => Fine.pure _

theorem fine_diverge {α} : Fine (GoM.diverge : GoM Sink α) := fun _ _ => .inl rfl

theorem fine_sharedL {P : Nat → Prop} {e : Val → GoM Sink Nat} (he : ∀ v, G P v → Fine (e v)) : ∀ vs, GL P vs → Fine (sharedL e vs)
  | [], _ => Fine.pure _
  | v :: vs, h => (he v h.1).bind fun _ => (fine_sharedL he vs h.2).bind fun _ => Fine.pure _

theorem fine_sharedF {P : Nat → Prop} {e : Val → GoM Sink Nat} (he : ∀ v, G P v → Fine (e v)) : ∀ l, GF P l → Fine (sharedF e l)
  | [], _ => (fine_string _ _).bind fun _ => (Fine.write _).bind fun _ => Fine.pure _
  | (k, v) :: l, h => (fine_string k false).bind fun _ => (he v h.2.1).bind fun _ => (fine_sharedF he l h.2.2).bind fun _ => Fine.pure _

theorem fine_shared {r : List Ref0} (hr : Good r) (f : Nat) : ∀ v, G (Obj r) v → Fine (encodeShared r f v) := by
  induction f with
  | zero => intro v _; simpa only [encodeShared] using fine_diverge
  | succ f ih =>
    intro v h
    match v, h with
    | .nil, _ => exact (Fine.write _).bind fun _ => Fine.pure _
    | .bool b, _ => exact (Fine.write _).bind fun _ => (Fine.write _).bind fun _ => Fine.pure _
    | .f64 _, _ => exact (Fine.write _).bind fun _ => (Fine.write _).bind fun _ => Fine.pure _
    | .str s, _ =>
      show Fine (if s.length ≤ 65535 then encodeString s true else encodeLongString s true)
      split
      · exact fine_string _ _
      · exact (fine_opt _ _).bind fun _ => (Fine.write _).bind fun _ => (Fine.write _).bind fun _ => Fine.pure _
    | .arr xs, h =>
      simp only [encodeShared]
      exact (Fine.write _).bind fun _ => (Fine.write _).bind fun _ => (fine_sharedL ih xs h.2).bind fun _ => Fine.pure _
    | .obj l, h =>
      simp only [encodeShared]
      exact (fine_opt _ _).bind fun _ => (fine_sharedF ih l h.2).bind fun _ => Fine.pure _
    | .typed t l, h =>
      simp only [encodeShared]
      exact (Fine.write _).bind fun _ => (fine_string _ _).bind fun _ => (fine_sharedF ih l h.2.2).bind fun _ => Fine.pure _
    | .shared n, h =>
      obtain ⟨l, hl⟩ := h
      simp only [encodeShared, hl]
      exact (fine_opt _ _).bind fun _ => (fine_sharedF ih l (hr l (List.mem_of_getElem? hl)).2).bind fun _ => Fine.pure _
    | .int _ _, h | .uint _ _, h | .bytes _, h | .time _, h | .ecma _ _, h | .other, h => exact h.elim

theorem div_sharedL {r : List Ref0} {e : Val → GoM Sink Nat} (hf : ∀ v, G (Obj r) v → Fine (e v))
    (he : ∀ v, G (Obj r) v → (∃ w, Stands (heapOf r) v w) ∨ AllDiv (e v)) : ∀ vs, GL (Obj r) vs →
    (∃ ws, StandsL (heapOf r) vs ws) ∨ AllDiv (sharedL e vs)
  | [], _ => .inl ⟨[], .nil⟩
  | v :: vs, h => by
    rcases he v h.1 with ⟨w, hw⟩ | hd
    · rcases div_sharedL hf he vs h.2 with ⟨ws, hws⟩ | hd
      · exact .inl ⟨w :: ws, .cons hw hws⟩
      · exact .inr (AllDiv.after (hf v h.1) fun _ => hd.bind)
    · exact .inr hd.bind

theorem div_sharedF {r : List Ref0} {e : Val → GoM Sink Nat} (hf : ∀ v, G (Obj r) v → Fine (e v))
    (he : ∀ v, G (Obj r) v → (∃ w, Stands (heapOf r) v w) ∨ AllDiv (e v)) : ∀ l, GF (Obj r) l →
    (∃ l', StandsF (heapOf r) l l') ∨ AllDiv (sharedF e l)
  | [], _ => .inl ⟨[], .nil⟩
  | (k, v) :: l, h => by
    rcases he v h.2.1 with ⟨w, hw⟩ | hd
    · rcases div_sharedF hf he l h.2.2 with ⟨ws, hws⟩ | hd
      · exact .inl ⟨(k, w) :: ws, .cons hw hws⟩
      · exact .inr (AllDiv.after (fine_string k false) fun _ => AllDiv.after (hf v h.2.1) fun _ => hd.bind)
    · exact .inr (AllDiv.after (fine_string k false) fun _ => hd.bind)

/-- A value is a tree, or encoding it does not end. -/
theorem div_shared {r : List Ref0} (hr : Good r) (f : Nat) : ∀ v, G (Obj r) v → (∃ w, Stands (heapOf r) v w) ∨ AllDiv (encodeShared r f v) := by
  induction f with
  | zero => intro v _; exact .inr fun s _ => by simp [encodeShared, GoM.diverge]
  | succ f ih =>
    intro v h
    match v, h with
    | .nil, _ => exact .inl ⟨_, .nil⟩
    | .bool b, _ => exact .inl ⟨_, .bool b⟩
    | .f64 x, _ => exact .inl ⟨_, .f64 x⟩
    | .str s, _ => exact .inl ⟨_, .str s⟩
    | .arr xs, h =>
      rcases div_sharedL (fine_shared hr f) ih xs h.2 with ⟨ys, hy⟩ | hd
      · exact .inl ⟨_, .arr hy⟩
      · simp only [encodeShared]
        exact .inr (AllDiv.after (Fine.write _) fun _ => AllDiv.after (Fine.write _) fun _ => hd.bind)
    | .obj l, h =>
      rcases div_sharedF (fine_shared hr f) ih l h.2 with ⟨ys, hy⟩ | hd
      · exact .inl ⟨_, .obj hy⟩
      · simp only [encodeShared]
        exact .inr (AllDiv.after (fine_opt _ _) fun _ => hd.bind)
    | .typed t l, h =>
      rcases div_sharedF (fine_shared hr f) ih l h.2.2 with ⟨ys, hy⟩ | hd
      · exact .inl ⟨_, .typed t hy⟩
      · simp only [encodeShared]
        exact .inr (AllDiv.after (Fine.write _) fun _ => AllDiv.after (fine_string _ _) fun _ => hd.bind)
    | .shared n, h =>
      obtain ⟨l, hl⟩ := h
      rcases div_sharedF (fine_shared hr f) ih l (hr l (List.mem_of_getElem? hl)).2 with ⟨ys, hy⟩ | hd
      · exact .inl ⟨_, .shared (by simp [heapOf, hl]) hy⟩
      · simp only [encodeShared, hl]
        exact .inr (AllDiv.after (fine_opt _ _) fun _ => hd.bind)
    | .int _ _, h | .uint _ _, h | .bytes _, h | .time _, h | .ecma _ _, h | .other, h => exact h.elim

theorem k_decode : K decode (fun s v => G (Obj s.refs0) v) := fun s a s' hi he => k_dec _ s a s' hi he

end Verif.Amf0

namespace Verif.Amf3
open Verif.Amf Verif.Spec.Amf Verif.Spec.Amf3

theorem u29_small {b n} (h : IsU29 b n) : n < 2 ^ 29 := by
  cases h with
  | one a _ => omega
  | two a b _ _ => have := a.toNat_lt; omega
  | three a b c _ _ _ => have := a.toNat_lt; have := b.toNat_lt; omega
  | four a b c d _ _ _ => have := a.toNat_lt; have := b.toNat_lt; have := c.toNat_lt; have := d.toNat_lt; omega

/-- Can be sent on, if there are no arrays and no remote dates inside. -/
def E (v : Val) : Prop := NoArray v → Encodable v ∧ Spec.Amf0.Fits64 v

/-- What has been sent fits. -/
structure Tab3 (t : Seen) : Prop where
  strs : ∀ x ∈ t.strs, x.length < 2 ^ 28
  vals : ∀ v, some v ∈ t.vals → E v
  names : ∀ c ∈ t.classes, c.2.length < 2 ^ 25 ∧ ∀ k ∈ c.2, k.length < 2 ^ 28

theorem tab3_str {t b x t'} (h : ReadStr t b x t') (ht : Tab3 t) : Tab3 t' ∧ x.length < 2 ^ 28 := by
  cases h with
  | empty => exact ⟨ht, by simp⟩
  | ref _ h => exact ⟨ht, ht.strs _ (List.mem_of_getElem? h)⟩
  | full hu =>
    have hx : x.length < 2 ^ 28 := by have := u29_small hu; omega
    refine ⟨⟨?_, ht.vals, ht.names⟩, hx⟩
    intro y hy
    simp only [List.mem_append, List.mem_singleton] at hy
    rcases hy with hy | rfl
    · exact ht.strs y hy
    · exact hx

theorem tab3_names {t b ks t'} (h : ReadNames t b ks t') (ht : Tab3 t) : Tab3 t' ∧ ∀ k ∈ ks, k.length < 2 ^ 28 := by
  induction h with
  | nil => exact ⟨ht, by simp⟩
  | cons h1 _ ih =>
    obtain ⟨i1, i2⟩ := tab3_str h1 ht
    obtain ⟨j1, j2⟩ := ih i1
    exact ⟨j1, by simpa using ⟨i2, j2⟩⟩

theorem tab3_class {t b f ks t'} (h : ReadClass t b f ks t') (ht : Tab3 t) : Tab3 t' ∧ ks.length < 2 ^ 25 ∧ ∀ k ∈ ks, k.length < 2 ^ 28 := by
  cases h with
  | ref _ h => exact ⟨ht, ht.names _ (List.mem_of_getElem? h)⟩
  | new hu _ h1 h2 =>
    obtain ⟨i1, _⟩ := tab3_str h1 ht
    obtain ⟨j1, j2⟩ := tab3_names h2 i1
    have hk : ks.length < 2 ^ 25 := by have := u29_small hu; omega
    refine ⟨⟨j1.strs, j1.vals, ?_⟩, hk, j2⟩
    intro c hc
    simp only [List.mem_append, List.mem_singleton] at hc
    rcases hc with hc | rfl
    · exact j1.names c hc
    · exact ⟨hk, j2⟩

theorem tab3_none {t} (h : Tab3 t) : Tab3 (t.add none) :=
  ⟨h.strs, fun v hv => h.vals v (by simpa [Seen.add] using hv), h.names⟩

theorem tab3_some {t v} (h : Tab3 t) (hv : E v) : Tab3 (t.add (some v)) := by
  refine ⟨h.strs, fun w hw => ?_, h.names⟩
  simp only [Seen.add, List.mem_append, List.mem_singleton, Option.some.injEq] at hw
  rcases hw with hw | rfl
  · exact h.vals w hw
  · exact hv

theorem e_blob {m x v} (h : Blob m x v) (hx : x.length < 2 ^ 28) : E v := by cases h <;> exact fun _ => ⟨hx, trivial⟩

theorem noArrayF_mem {l : List (Bytes × Val)} (h : NoArrayF l) : ∀ e ∈ l, NoArray e.2 := by
  induction l with
  | nil => simp
  | cons a l ih =>
    obtain ⟨k, v⟩ := a
    intro e he
    rcases List.mem_cons.1 he with rfl | he
    · exact h.1
    · exact ih h.2 e he

theorem encodableF_of {l : List (Bytes × Val)} (h : ∀ e ∈ l, e.1.length < 2 ^ 28 ∧ Encodable e.2) : EncodableF l := by
  induction l with
  | nil => trivial
  | cons a l ih =>
    obtain ⟨k, v⟩ := a
    have h0 := h (k, v) List.mem_cons_self
    exact ⟨h0.1, h0.2, ih fun e he => h e (List.mem_cons_of_mem _ he)⟩

theorem fits64F_of {l : List (Bytes × Val)} (h : ∀ e ∈ l, Spec.Amf0.Fits64 e.2) : Spec.Amf0.Fits64F l := by
  induction l with
  | nil => trivial
  | cons a l ih => exact ⟨h a List.mem_cons_self, ih fun e he => h e (List.mem_cons_of_mem _ he)⟩

theorem lastWins_keys (l : List (Bytes × Val)) : ((lastWins l).map Prod.fst).Nodup ∧ (lastWins l).length ≤ l.length := by
  have h : ∀ r : List (Bytes × Val), ((lastWins r.reverse).map Prod.fst).Nodup ∧ (lastWins r.reverse).length ≤ r.reverse.length := by
    intro r
    induction r with
    | nil => exact ⟨by simp [lastWins], by simp [lastWins]⟩
    | cons a r ih =>
      obtain ⟨k, v⟩ := a
      rw [List.reverse_cons, Amf0.lastWins_snoc]
      refine ⟨mapSet_keys _ _ _ ih.1, ?_⟩
      have : (mapSet (lastWins r.reverse) k v).length ≤ (lastWins r.reverse).length + 1 := by
        unfold mapSet
        split <;> simp
      simp only [List.length_append, List.length_singleton]
      omega
  simpa using h l.reverse

mutual
theorem e_read {strict t b v t'} : Read strict t b v t' → Tab3 t → E v ∧ Tab3 t'
  | .undefined, h => ⟨fun _ => ⟨trivial, trivial⟩, h⟩
  | .null, h => ⟨fun _ => ⟨trivial, trivial⟩, h⟩
  | .no, h => ⟨fun _ => ⟨trivial, trivial⟩, h⟩
  | .yes, h => ⟨fun _ => ⟨trivial, trivial⟩, h⟩
  | .int hu _, h => ⟨fun _ => ⟨trivial, by have := u29_small hu; simp only [Spec.Amf0.Fits64]; omega⟩, h⟩
  | .double _, h => ⟨fun _ => ⟨trivial, trivial⟩, h⟩
  | .str hs, h => ⟨fun _ => ⟨(tab3_str hs h).2, trivial⟩, (tab3_str hs h).1⟩
  | .blob hu _ hb, h => by
    have i := e_blob hb (by have := u29_small hu; omega)
    exact ⟨i, tab3_some h i⟩
  | .empty _ _ hb, h => ⟨e_blob hb (by simp), h⟩
  | .cut _ hu _ hl hb, h => by
    have i := e_blob hb (by have := u29_small hu; simp only [List.length_append, List.length_replicate]; omega)
    exact ⟨i, tab3_some h i⟩
  | .date _ _ _, h => ⟨fun hn => ⟨hn, trivial⟩, tab3_some h fun hn => ⟨hn, trivial⟩⟩
  | .again _ hv _, h => ⟨h.vals _ (List.mem_of_getElem? hv), h⟩
  | .lost _ _ _ _ hv, h => ⟨by rcases hv with rfl | ⟨_, rfl⟩ <;> intro hn <;> first | exact hn.elim | exact ⟨trivial, trivial⟩, h⟩
  | .stray _ _ hv, h => ⟨h.vals _ (List.mem_of_getElem? hv), h⟩
  | .arr _ h1 h2, h => ⟨fun hn => hn.elim, (e_readAll h2 (e_members h1 (tab3_none h))).2⟩
  | .obj (ks := ks) (vs := vs) h1 _ h2 _, h => by
    have i1 := tab3_class h1 h
    have i2 := e_readAll h2 (tab3_none i1.1)
    refine ⟨fun hn => ?_, i2.2⟩
    have hk := lastWins_keys (ks.zip vs)
    have hall : ∀ e ∈ lastWins (ks.zip vs), e.1.length < 2 ^ 28 ∧ Encodable e.2 ∧ Spec.Amf0.Fits64 e.2 := fun e he => by
      have hz := List.of_mem_zip (a := e.1) (b := e.2) (lastWins_mem _ e he)
      exact ⟨i1.2.2 _ hz.1, i2.1 _ hz.2 (noArrayF_mem hn e he)⟩
    refine ⟨⟨?_, hk.1, encodableF_of fun e he => ⟨(hall e he).1, (hall e he).2.1⟩⟩, fits64F_of fun e he => (hall e he).2.2⟩
    have := hk.2
    simp only [List.length_zip] at this
    omega
theorem e_readAll {strict t b vs t'} : ReadAll strict t b vs t' → Tab3 t → (∀ v ∈ vs, E v) ∧ Tab3 t'
  | .nil, h => ⟨by simp, h⟩
  | .cons h1 h2, h => by
    have i1 := e_read h1 h
    have i2 := e_readAll h2 i1.2
    exact ⟨by simpa using ⟨i1.1, i2.1⟩, i2.2⟩
theorem e_members {strict t b l t'} : ReadMembers strict t b l t' → Tab3 t → Tab3 t'
  | .done hs, h => (tab3_str hs h).1
  | .more hs _ h1 h2, h => e_members h2 (e_read h1 (tab3_str hs h).1).2
end

end Verif.Amf3
