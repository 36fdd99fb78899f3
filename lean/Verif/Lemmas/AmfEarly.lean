import Verif.Spec.AmfEarly
import Verif.Lemmas.AmfTakes0
import Verif.Lemmas.Amf0Safe
/-! # When the AMF0 decoder panics -/
namespace Verif.Amf0
open Verif.Amf Verif.Spec.Amf0
open Verif.Amf3 (Sound Holds)
open Verif.Spec.Amf3 (Seen Read lastWins)

/-! ## A panic comes from a reference to the next value -/

/-- If `m` panics, the data is as `P` says. -/
def Fear {α} (t : Seen0) (m : GoM St α) (P : Bytes → Prop) : Prop := ∀ s, Holds0 t s → (m s).1 = .panic → P s.data

namespace Fear
variable {α β : Type} {t : Seen0} {P : Bytes → Prop}

theorem bind {m : GoM St α} {f : α → GoM St β} {R : Bytes → α → Seen0 → Prop} (h : Sound0 t m R) (hp : Fear t m P)
    (h' : ∀ b a t', R b a t' → Ext t t' → Fear t' (f a) (fun c => P (b ++ c))) : Fear t (m >>= f) P := by
  intro s hs he
  rw [GoM.bind_apply] at he
  rcases hm : m s with ⟨r, s1⟩
  rw [hm] at he
  cases r with
  | ok a =>
    obtain ⟨b, t', e1, r1, hs1, f1⟩ := h s a s1 hs hm
    rw [e1]
    exact h' b a t' r1 f1 s1 hs1 he
  | err e => simp at he
  | panic => exact hp s hs (by rw [hm])
  | diverge => simp at he

theorem of_safe {m : GoM St α} (h : ∀ N, Safe false N 0 m) : Fear t m P := by
  intro s hs he
  have := ((h s.data.length) s (Nat.le_refl _) (fun c hc => (hs.amf3.plain c hc).1)).2.1 he
  simp at this

theorem pure {a : α} : Fear t (Pure.pure a) P := fun s _ he => by simp at he

theorem fail {e : Err} : Fear t (GoM.fail e : GoM St α) P := fun s _ he => by simp [GoM.fail] at he

/-- The rest cannot panic. -/
theorem map {m : GoM St α} {f : α → GoM St β} (h : Fear t m P) (hf : ∀ a s, (f a s).1 ≠ .panic) : Fear t (m >>= f) P := by
  intro s hs he
  rw [GoM.bind_apply] at he
  rcases hm : m s with ⟨r, s1⟩
  rw [hm] at he
  cases r with
  | ok a => exact absurd he (hf a s1)
  | err e => simp at he
  | panic => exact h s hs (by rw [hm])
  | diverge => simp at he

theorem ite {p : Prop} [Decidable p] {m m' : GoM St α} (h : p → Fear t m P) (h' : ¬ p → Fear t m' P) :
    Fear t (if p then m else m') P := by
  split
  · exact h ‹_›
  · exact h' ‹_›

theorem mono {m : GoM St α} {Q : Bytes → Prop} (h : Fear t m P) (hq : ∀ b, P b → Q b) : Fear t m Q := fun s hs he => hq _ (h s hs he)
end Fear

variable {t : Seen0} {d : GoM St Val}

def Fears (d : GoM St Val) : Prop := ∀ t, Fear t d (Early false t)

theorem fear_string {P} : Fear t decodeString P := .of_safe fun _ => safe_decodeString.mono (Nat.le_refl _) (Nat.zero_le _)
theorem fear_u32 {P} : Fear t readU32 P := .of_safe fun _ => safe_readU32.mono (Nat.le_refl _) (Nat.zero_le _)

theorem fear_objLoop (hd : Decodes0 d) (hf : Fears d) (id n : Nat) : ∀ (t : Seen0) (acc : List (Bytes × Val)), (t.typed = 0 → t.complex[id]? = some true) →
    Fear t (objLoop d id n acc) (EarlyFields false t) := by
  induction n with
  | zero => intro t acc _ s _ he; simp [objLoop, GoM.diverge] at he
  | succ n ih =>
    intro t acc hid
    rw [objLoop]
    refine Fear.bind sound0_string fear_string fun b key t1 h1 _ => ?_
    obtain ⟨rfl, hk, rfl⟩ := h1
    refine Fear.ite (fun _ => ?_) fun h0 => ?_
    · exact Fear.map (.of_safe fun _ => (Safe.nextByteMustBe _).mono (Nat.le_refl _) (Nat.zero_le _)) fun _ _ => by simp
    · refine Fear.bind (hd t1) ((hf t1).mono fun c h => .here h0 hk h) fun c v t2 h2 hx => ?_
      have hid2 := ext_obj hid hx
      refine Fear.bind (sound0_setRef id _ hid2) (fun s _ he => ?_) fun e _ t3 h3 _ => ?_
      · simp [setRef] at he
      obtain ⟨rfl, rfl⟩ := h3
      exact (ih t3 _ hid2).mono fun f h => .later h0 hk h2 h

theorem fear_object (hd : Decodes0 d) (hf : Fears d) (fuel : Nat) : Fear t (decodeObject d fuel) (EarlyFields false (t.add true)) := by
  unfold decodeObject
  refine Fear.bind (sound0_pushRef true) (fun s _ he => by simp [pushRef] at he) fun b id t1 h1 _ => ?_
  obtain ⟨rfl, rfl, rfl⟩ := h1
  refine (fear_objLoop hd hf _ fuel _ [] ?_).mono fun c h => by simpa using h
  intro h0
  simp only [Seen0.add] at h0 ⊢
  simp [h0]

theorem fear_arrLoop (hd : Decodes0 d) (hf : Fears d) (n : Nat) : ∀ (t : Seen0) (acc : List Val),
    Fear t (arrLoop d n acc) (EarlyAll false n t) := by
  induction n with
  | zero => intro t acc; exact Fear.pure
  | succ n ih =>
    intro t acc
    refine Fear.bind (hd t) ((hf t).mono fun c h => .here h) fun b v t1 hv _ => ?_
    exact (ih t1 (acc ++ [v])).mono fun e h => .later hv h

theorem fear_strictArray (hd : Decodes0 d) (hf : Fears d) : Fear t (decodeStrictArray d) (fun b => Early false t (10 :: b)) := by
  unfold decodeStrictArray
  refine Fear.bind sound0_readU32 fear_u32 fun b n t1 h1 _ => ?_
  obtain ⟨rfl, hn, rfl⟩ := h1
  refine Fear.bind (sound0_pushRef false) (fun s _ he => by simp [pushRef] at he) fun c _ t2 h2 _ => ?_
  obtain ⟨rfl, _, rfl⟩ := h2
  refine (fear_arrLoop hd hf n _ []).mono fun e h => ?_
  refine .strictArr ?_
  have : (UInt32.ofNat n).toNat = n := by simp; omega
  rw [this]
  exact h

theorem fear_typed (hd : Decodes0 d) (hf : Fears d) (fuel : Nat) : Fear t (decodeTypedObject d fuel) (fun b => Early false t (16 :: b)) := by
  unfold decodeTypedObject
  have key : Fear { t with typed := t.typed + 1 } (decodeString >>= fun x => decodeObject d fuel >>= fun o => pure (x, o))
      (fun b => Early false t (16 :: b)) := by
    refine Fear.bind sound0_string fear_string fun b x t1 h1 _ => ?_
    obtain ⟨rfl, hx, rfl⟩ := h1
    exact Fear.map ((fear_object hd hf fuel).mono fun c h => .typed hx h) fun _ _ => by simp
  intro s hs he
  rw [GoM.bind_apply] at he
  exact key { s with refs0 := s.refs0 ++ [.zeroTyped] } ⟨Holds.refs hs.amf3 _, by simp [hs.len]; omega, fun h => absurd h (by simp), fun h => absurd h (by simp)⟩ he

theorem fear_reference : Fear t decodeReference (fun b => Early false t (7 :: b)) := by
  unfold decodeReference
  refine Fear.bind sound0_readU16 (.of_safe fun _ => safe_readU16.mono (Nat.le_refl _) (Nat.zero_le _)) fun b n t1 h1 _ => ?_
  obtain ⟨rfl, hn, rfl⟩ := h1
  intro s hs he
  rw [GoM.bind_apply, GoM.get_apply] at he
  simp only at he
  have hl := hs.len
  have hto : (UInt16.ofNat n).toNat = n := by simp; omega
  split at he
  · simp at he
  · rename_i hle
    rw [GoM.bind_apply, GoM.lift_apply] at he
    rcases hx : s.refs0[n]? with _ | r
    · have := List.getElem?_eq_none_iff.1 hx
      exact .ref (by rw [hto]; omega)
    · have : goIndex s.refs0 (n : Int) = .ok r := by
        unfold goIndex
        rw [if_neg (by omega)]
        simp only [Int.toNat_natCast, hx]
      rw [this] at he
      cases r <;> simp at he

theorem fear_branch (fuel : Nat) (hf : Fears (dec fuel)) (m : UInt8) : Fear t (branch fuel m) (fun b => Early false t (m :: b)) := by
  have hd := sound0_dec fuel
  unfold branch
  refine Fear.ite (fun _ => .map (.of_safe fun _ => Safe.readFull.mono (Nat.le_refl _) (Nat.zero_le _)) fun _ _ => by simp) fun _ => ?_
  refine Fear.ite (fun _ => .map (.of_safe fun _ => Safe.readByte.mono (Nat.le_refl _) (Nat.zero_le _)) fun _ _ => by simp) fun _ => ?_
  refine Fear.ite (fun _ => .map fear_string fun _ _ => by simp) fun _ => ?_
  refine Fear.ite (fun h => h ▸ .map ((fear_object hd hf fuel).mono fun _ h => .obj h) fun _ _ => by simp) fun _ => ?_
  refine Fear.ite (fun _ => Fear.fail) fun _ => ?_
  refine Fear.ite (fun _ => Fear.pure) fun _ => ?_
  refine Fear.ite (fun h => h ▸ fear_reference) fun _ => ?_
  refine Fear.ite (fun h => h ▸ .map ?_ fun _ _ => by simp) fun _ => ?_
  · unfold decodeEcmaArray
    refine Fear.bind sound0_readU32 fear_u32 fun b n t1 h1 _ => ?_
    obtain ⟨rfl, hn, rfl⟩ := h1
    exact (fear_object hd hf fuel).mono fun _ h => .ecma _ h
  refine Fear.ite (fun h => h ▸ .map (fear_strictArray hd hf) fun _ _ => by simp) fun _ => ?_
  refine Fear.ite (fun _ => .map (.of_safe fun _ => safe_decodeDate) fun _ _ => by simp) fun _ => ?_
  have hl : ∀ {P}, Fear t decodeLongString P := .of_safe fun _ => safe_decodeLongString.mono (Nat.le_refl _) (Nat.zero_le _)
  refine Fear.ite (fun _ => .map hl fun _ _ => by simp) fun _ => ?_
  refine Fear.ite (fun _ => Fear.fail) fun _ => ?_
  refine Fear.ite (fun _ => .map hl fun _ _ => by simp) fun _ => ?_
  refine Fear.ite (fun h => h ▸ .map (fear_typed hd hf fuel) fun _ _ => by simp) fun _ => ?_
  exact Fear.ite (fun _ => .of_safe fun _ => (Amf3.safe_decode _).mono (Nat.le_refl _) (Nat.zero_le _)) fun _ => Fear.fail

theorem fear_dec (fuel : Nat) : Fears (dec fuel) := by
  induction fuel with
  | zero => intro t s _ he; simp [dec, GoM.diverge] at he
  | succ fuel ih =>
    intro t
    rw [dec_succ]
    refine Fear.bind sound0_readByte (.of_safe fun _ => Safe.readByte.mono (Nat.le_refl _) (Nat.zero_le _)) fun b m t' h _ => ?_
    obtain ⟨rfl, rfl⟩ := h
    exact fear_branch fuel ih m

theorem fear_decode : Fears decode := fun t s hs he => fear_dec _ t s hs he

/-! ## A reference to the next value panics -/

theorem early_pos {strict b} (h : Early strict t b) : b ≠ [] := by cases h <;> simp

theorem earlyFields_pos {strict b} (h : EarlyFields strict t b) : b ≠ [] := by
  cases h <;> simp [utf8, be16]

theorem earlyAll_pos {strict n b} (h : EarlyAll strict n t b) : b ≠ [] := by
  induction n generalizing t b with
  | zero => cases h
  | succ n ih =>
    cases h with
    | here h => exact early_pos h
    | later h h' => simp [ih h']

/-- Data as described by `P`, shorter than `F`, makes `m` panic. -/
def Hits {α} (F : Nat) (t : Seen0) (m : GoM St α) (P : Bytes → Prop) : Prop :=
  ∀ s, Holds0 t s → s.Contig → s.data.length < F → P s.data → (m s).1 = .panic

theorem Takes0.hits {α β} {m : GoM St α} {f : α → GoM St β} {b c : Bytes} {a : α} {t' : Seen0} (h : Takes0 t m b a t')
    {s : St} (hs : Holds0 t s) (hc : s.Contig) (hd : s.data = b ++ c) (hne : c ≠ [])
    (hf : ∀ s1, Holds0 t' s1 → s1.Contig → s1.data = c → (f a s1).1 = .panic) : ((m >>= f) s).1 = .panic := by
  obtain ⟨s1, h1, h2, h3, h4⟩ := h.2 s c hs hc (.inr hne) hd
  rw [GoM.bind_apply, h1]
  exact hf s1 h4 (by unfold St.Contig; rw [h3.1]; exact hc) h2

theorem bind_panic {α β} {m : GoM St α} {f : α → GoM St β} {s : St} (h : (m s).1 = .panic) : ((m >>= f) s).1 = .panic := by
  rw [GoM.bind_apply]
  rcases hm : m s with ⟨r, s1⟩
  rw [hm] at h
  cases h
  rfl

def HitsAll (F : Nat) (d : GoM St Val) : Prop := ∀ t, Hits F t d (Early true t)

variable {F : Nat}

theorem hits_arr (hd : Reads0 F d) (hh : HitsAll F d) (n : Nat) : ∀ (t : Seen0) (acc : List Val) (s : St), Holds0 t s → s.Contig → s.data.length < F →
    EarlyAll true n t s.data → (arrLoop d n acc s).1 = .panic := by
  induction n with
  | zero => intro t acc s _ _ _ h; cases h
  | succ n ih =>
    intro t acc s hs hc hl h
    generalize hx : s.data = x at h
    rw [arrLoop]
    cases h with
    | here h => exact bind_panic (hh t s hs hc hl (hx ▸ h))
    | @later _ c v t' e _ h h' =>
      rw [hx, List.length_append] at hl
      refine (hd _ _ _ _ (by omega) h).hits hs hc hx (earlyAll_pos h') fun s1 g1 g2 g3 => ?_
      exact ih t' _ s1 g1 g2 (by rw [g3]; omega) (g3 ▸ h')

theorem hits_fields (hd : Reads0 F d) (hh : HitsAll F d) (id : Nat) (n : Nat) : ∀ (t : Seen0) (acc : List (Bytes × Val)) (s : St), Holds0 t s → s.Contig →
    s.data.length < F → s.data.length < n → (t.typed = 0 → t.complex[id]? = some true) →
    EarlyFields true t s.data → (objLoop d id n acc s).1 = .panic := by
  induction n with
  | zero => intro t acc s _ _ _ h; omega
  | succ n ih =>
    intro t acc s hs hc hl hn hid h
    generalize hx : s.data = x at h
    rw [hx] at hl hn
    rw [objLoop]
    cases h with
    | @here _ k c hk hkl h =>
      have hu : (utf8 k).length = 2 + k.length := by simp [utf8, be16_length]
      rw [List.length_append, hu] at hl hn
      refine (takes0_string k hkl).hits hs hc hx (early_pos h) fun s1 g1 g2 g3 => ?_
      rw [if_neg hk]
      exact bind_panic (hh t s1 g1 g2 (by rw [g3]; omega) (g3 ▸ h))
    | @later _ k c v t' e hk hkl h h' =>
      have hu : (utf8 k).length = 2 + k.length := by simp [utf8, be16_length]
      rw [List.length_append, List.length_append, hu] at hl hn
      have hne := earlyFields_pos h'
      refine (takes0_string k hkl).hits hs hc hx (by simp [hne]) fun s1 g1 g2 g3 => ?_
      rw [if_neg hk]
      have hV := hd _ _ _ _ (by omega) h
      have hid1 := ext_obj hid hV.1
      refine hV.hits g1 g2 g3 hne fun s2 k1 k2 k3 => ?_
      refine (takes0_set id _ hid1).hits (c := e) k1 k2 k3 hne fun s3 l1 l2 l3 => ?_
      exact ih t' _ s3 l1 l2 (by rw [l3]; omega) (by rw [l3]; omega) hid1 (l3 ▸ h')

theorem hits_object (hd : Reads0 F d) (hh : HitsAll F d) (n : Nat) {s : St} (hs : Holds0 t s) (hc : s.Contig) (hl : s.data.length < F)
    (hn : s.data.length < n) (h : EarlyFields true (t.add true) s.data) : (decodeObject d n s).1 = .panic := by
  refine (takes0_push true).hits (c := s.data) hs hc rfl (earlyFields_pos h) fun s1 g1 g2 g3 => ?_
  refine hits_fields hd hh _ n _ [] s1 g1 g2 (by rw [g3]; exact hl) (by rw [g3]; exact hn) ?_ (g3 ▸ h)
  intro h0
  simp only [Seen0.add] at h0 ⊢
  simp [h0]

theorem hits_ref {s : St} (hs : Holds0 t s) {n : UInt16} {rest : Bytes} (hd : s.data = be16 n ++ rest) (h : n.toNat = t.complex.length + t.typed) :
    (decodeReference s).1 = .panic := by
  have hu : readU16 s = (.ok n.toNat, { s with data := rest }) := by
    simp only [readU16, GoM.bind_apply, readFull]
    rw [if_neg (by simp [hd, be16]), if_neg (by simp [hd, be16])]
    have : beNat (be16 n) = n.toNat := by
      have := beNat_be16 n.toNat n.toNat_lt
      rwa [UInt16.ofNat_toNat] at this
    have ht : List.take 2 s.data = be16 n := by rw [hd]; rfl
    have hdr : List.drop 2 s.data = rest := by rw [hd]; rfl
    simp only [ht, hdr, this, GoM.pure_apply]
  have hl := hs.len
  have hng : ¬ n.toNat > s.refs0.length := by omega
  have hi : goIndex s.refs0 (n.toNat : Int) = .panic := by
    have : s.refs0[n.toNat]? = none := List.getElem?_eq_none_iff.2 (by omega)
    simp [goIndex, this]
  simp only [decodeReference, GoM.bind_apply, hu, GoM.get_apply, if_neg hng, hi]
  simp

theorem hits_dec (fuel : Nat) : HitsAll fuel (dec fuel) := by
  induction fuel with
  | zero => intro t s _ _ hl; omega
  | succ fuel ih =>
    intro t s hs hc hl h
    have hd := takes0_dec fuel
    rw [dec_succ]
    have mk : ∀ {m c}, s.data = m :: c → c ≠ [] → (∀ s1, Holds0 t s1 → s1.Contig → s1.data = c → c.length < fuel → (branch fuel m s1).1 = .panic) →
        ((readByte >>= branch fuel) s).1 = .panic := by
      intro m c hx hne hf
      rw [hx, List.length_cons] at hl
      exact (Takes0.readByte m).hits hs hc hx hne fun s1 g1 g2 g3 => hf s1 g1 g2 g3 (by omega)
    generalize hx : s.data = x at h
    cases h with
    | ref h => exact mk hx (by simp [be16]) fun s1 g1 _ g3 _ => hits_ref g1 g3 h
    | obj h => exact mk hx (earlyFields_pos h) fun s1 g1 g2 g3 g4 => bind_panic (hits_object hd ih fuel g1 g2 (g3 ▸ g4) (g3 ▸ g4) (g3 ▸ h))
    | @ecma _ b count h =>
      refine mk hx (by simp [be32]) fun s1 g1 g2 g3 g4 => bind_panic ?_
      have hcount : Takes0 t readU32 (be32 count) count.toNat t := by
        have := takes0_u32 (t := t) count.toNat count.toNat_lt
        rwa [UInt32.ofNat_toNat] at this
      rw [List.length_append] at g4
      refine hcount.hits g1 g2 g3 (earlyFields_pos h) fun s2 k1 k2 k3 => ?_
      exact hits_object hd ih fuel k1 k2 (by rw [k3]; omega) (by rw [k3]; omega) (k3 ▸ h)
    | @strictArr _ b n h =>
      refine mk hx (by simp [be32]) fun s1 g1 g2 g3 g4 => bind_panic ?_
      have hcount : Takes0 t readU32 (be32 n) n.toNat t := by
        have := takes0_u32 (t := t) n.toNat n.toNat_lt
        rwa [UInt32.ofNat_toNat] at this
      rw [List.length_append] at g4
      refine hcount.hits g1 g2 g3 (earlyAll_pos h) fun s2 k1 k2 k3 => ?_
      refine (takes0_push false).hits (c := b) k1 k2 k3 (earlyAll_pos h) fun s3 l1 l2 l3 => ?_
      exact hits_arr hd ih _ _ [] s3 l1 l2 (by rw [l3]; omega) (l3 ▸ h)
    | @typed _ name b hn h =>
      refine mk hx (by simp [utf8, be16]) fun s1 g1 g2 g3 g4 => bind_panic ?_
      rw [List.length_append] at g4
      unfold decodeTypedObject
      rw [GoM.bind_apply]
      refine (takes0_string (t := { t with typed := t.typed + 1 }) name hn).hits (s := { s1 with refs0 := s1.refs0 ++ [.zeroTyped] })
        ⟨Holds.refs g1.amf3 _, by simp [g1.len]; omega, fun h => absurd h (by simp), fun h => absurd h (by simp)⟩ g2 g3 (earlyFields_pos h)
        fun s2 k1 k2 k3 => bind_panic ?_
      exact hits_object hd ih fuel k1 k2 (by rw [k3]; omega) (by rw [k3]; omega) (k3 ▸ h)

theorem hits_decode {s : St} (hs : Holds0 t s) (hc : s.Contig) (h : Early true t s.data) : (decode s).1 = .panic :=
  hits_dec _ t s hs hc (Nat.lt_succ_self _) h

end Verif.Amf0
