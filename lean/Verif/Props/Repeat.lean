import Verif.Spec.Repeat
import Verif.Props.Amf0
import Verif.Props.SipsConn
/-!
# Property C168: the same value is always written with the same bytes

`MapEq` (`Verif/Spec/Amf3.lean`): equal up to the order in which Go visits the maps.  For AMF3 see C31.
-/
namespace Verif.Props
open Verif Verif.Amf Verif.Spec.Amf

mutual
theorem repeat_wire : (v w : Val) → Spec.Amf3.MapEq v w → (Spec.Amf0.wire w).length = (Spec.Amf0.wire v).length
  | .arr xs, w, h => by
    simp only [Spec.Amf3.MapEq] at h
    obtain ⟨ys, rfl, h⟩ := h
    have := repeat_wireL xs ys h
    simp [Spec.Amf0.wire, this, Amf0.be32_length]
  | .obj kvs, w, h => by
    simp only [Spec.Amf3.MapEq] at h
    obtain ⟨l, l', rfl, hp, -, h⟩ := h
    have h1 := repeat_wireF kvs l h
    have h2 := repeat_perm hp
    simp [Spec.Amf0.wire, h1, h2]
  | .typed t kvs, w, h => by
    simp only [Spec.Amf3.MapEq] at h
    obtain ⟨l, l', rfl, hp, -, h⟩ := h
    have h1 := repeat_wireF kvs l h
    have h2 := repeat_perm hp
    simp [Spec.Amf0.wire, h1, h2]
  | .nil, w, h => by simp only [Spec.Amf3.MapEq] at h; rw [h]
  | .bool _, w, h => by simp only [Spec.Amf3.MapEq] at h; rw [h]
  | .f64 _, w, h => by simp only [Spec.Amf3.MapEq] at h; rw [h]
  | .int _ _, w, h => by simp only [Spec.Amf3.MapEq] at h; rw [h]
  | .uint _ _, w, h => by simp only [Spec.Amf3.MapEq] at h; rw [h]
  | .str _, w, h => by simp only [Spec.Amf3.MapEq] at h; rw [h]
  | .bytes _, w, h => by simp only [Spec.Amf3.MapEq] at h; rw [h]
  | .time _, w, h => by simp only [Spec.Amf3.MapEq] at h; rw [h]
  | .ecma _ _, w, h => by simp only [Spec.Amf3.MapEq] at h; rw [h]
  | .shared _, w, h => by simp only [Spec.Amf3.MapEq] at h; rw [h]
  | .other, w, h => by simp only [Spec.Amf3.MapEq] at h; rw [h]
theorem repeat_wireL : (xs ys : List Val) → Spec.Amf3.MapEqL xs ys → (Spec.Amf0.wireL ys).length = (Spec.Amf0.wireL xs).length
  | [], ys, h => by simp only [Spec.Amf3.MapEqL] at h; rw [h]
  | x :: xs, ys, h => by
    simp only [Spec.Amf3.MapEqL] at h
    obtain ⟨y, t, rfl, h1, h2⟩ := h
    simp [Spec.Amf0.wireL, repeat_wire x y h1, repeat_wireL xs t h2]
theorem repeat_wireF : (kvs l : List (Bytes × Val)) → Spec.Amf3.MapEqF kvs l → (Spec.Amf0.wireF l).length = (Spec.Amf0.wireF kvs).length
  | [], l, h => by simp only [Spec.Amf3.MapEqF] at h; rw [h]
  | (k, v) :: r, l, h => by
    simp only [Spec.Amf3.MapEqF] at h
    obtain ⟨w, t, rfl, h1, h2⟩ := h
    simp [Spec.Amf0.wireF, repeat_wire v w h1, repeat_wireF r t h2]
theorem repeat_perm {l l' : List (Bytes × Val)} (h : l.Perm l') : (Spec.Amf0.wireF l').length = (Spec.Amf0.wireF l).length := by
  induction h with
  | nil => rfl
  | cons x _ ih => obtain ⟨k, v⟩ := x; simp [Spec.Amf0.wireF, ih]
  | swap x y l => obtain ⟨k, v⟩ := x; obtain ⟨k', v'⟩ := y; simp only [Spec.Amf0.wireF, List.length_append]; omega
  | trans _ _ h1 h2 => exact h2.trans h1
end

theorem encodableF_perm {l l' : List (Bytes × Val)} (h : l.Perm l') (he : Spec.Amf0.EncodableF l) : Spec.Amf0.EncodableF l' := by
  induction h with
  | nil => exact he
  | cons x _ ih => obtain ⟨k, v⟩ := x; exact ⟨he.1, he.2.1, ih he.2.2⟩
  | swap x y l => obtain ⟨k, v⟩ := x; obtain ⟨k', v'⟩ := y; exact ⟨he.2.2.1, he.2.2.2.1, he.1, he.2.1, he.2.2.2.2⟩
  | trans _ _ h1 h2 => exact h2 (h1 he)

mutual
theorem repeat_encodable : (v w : Val) → Spec.Amf3.MapEq v w → Spec.Amf0.Encodable v → Spec.Amf0.Encodable w
  | .arr xs, w, h, he => by
    simp only [Spec.Amf3.MapEq] at h
    obtain ⟨ys, rfl, h⟩ := h
    simp only [Spec.Amf0.Encodable] at he ⊢
    obtain ⟨h1, h2⟩ := repeat_encodableL xs ys h he.2
    exact ⟨by rw [h1]; exact he.1, h2⟩
  | .obj kvs, w, h, he => by
    simp only [Spec.Amf3.MapEq] at h
    obtain ⟨l, l', rfl, hp, hn, h⟩ := h
    simp only [Spec.Amf0.Encodable] at he ⊢
    exact ⟨hn, encodableF_perm hp (repeat_encodableF kvs l h he.2)⟩
  | .typed t kvs, w, h, he => by
    simp only [Spec.Amf3.MapEq] at h
    obtain ⟨l, l', rfl, hp, hn, h⟩ := h
    simp only [Spec.Amf0.Encodable] at he ⊢
    exact ⟨he.1, hn, encodableF_perm hp (repeat_encodableF kvs l h he.2.2)⟩
  | .nil, w, h, he => by simp only [Spec.Amf3.MapEq] at h; rw [h]; exact he
  | .bool _, w, h, he => by simp only [Spec.Amf3.MapEq] at h; rw [h]; exact he
  | .f64 _, w, h, he => by simp only [Spec.Amf3.MapEq] at h; rw [h]; exact he
  | .int _ _, w, h, he => by simp only [Spec.Amf3.MapEq] at h; rw [h]; exact he
  | .uint _ _, w, h, he => by simp only [Spec.Amf3.MapEq] at h; rw [h]; exact he
  | .str _, w, h, he => by simp only [Spec.Amf3.MapEq] at h; rw [h]; exact he
  | .bytes _, w, h, he => by simp only [Spec.Amf3.MapEq] at h; rw [h]; exact he
  | .time _, w, h, he => by simp only [Spec.Amf3.MapEq] at h; rw [h]; exact he
  | .ecma _ _, w, h, he => by simp only [Spec.Amf3.MapEq] at h; rw [h]; exact he
  | .shared _, w, h, he => by simp only [Spec.Amf3.MapEq] at h; rw [h]; exact he
  | .other, w, h, he => by simp only [Spec.Amf3.MapEq] at h; rw [h]; exact he
theorem repeat_encodableL : (xs ys : List Val) → Spec.Amf3.MapEqL xs ys → Spec.Amf0.EncodableL xs →
    ys.length = xs.length ∧ Spec.Amf0.EncodableL ys
  | [], ys, h, he => by simp only [Spec.Amf3.MapEqL] at h; rw [h]; exact ⟨rfl, he⟩
  | x :: xs, ys, h, he => by
    simp only [Spec.Amf3.MapEqL] at h
    obtain ⟨y, t, rfl, h1, h2⟩ := h
    simp only [Spec.Amf0.EncodableL] at he ⊢
    obtain ⟨h3, h4⟩ := repeat_encodableL xs t h2 he.2
    exact ⟨by simp [h3], repeat_encodable x y h1 he.1, h4⟩
theorem repeat_encodableF : (kvs l : List (Bytes × Val)) → Spec.Amf3.MapEqF kvs l → Spec.Amf0.EncodableF kvs → Spec.Amf0.EncodableF l
  | [], l, h, he => by simp only [Spec.Amf3.MapEqF] at h; rw [h]; exact he
  | (k, v) :: r, l, h, he => by
    simp only [Spec.Amf3.MapEqF] at h
    obtain ⟨w, t, rfl, h1, h2⟩ := h
    simp only [Spec.Amf0.EncodableF] at he ⊢
    exact ⟨he.1, repeat_encodable v w h1 he.2.1, repeat_encodableF r t h2 he.2.2⟩
end

mutual
theorem mapEq_refl : (v : Val) → Spec.Amf0.Encodable v → Spec.Amf3.MapEq v v
  | .arr xs, h => by
    simp only [Spec.Amf3.MapEq]
    simp only [Spec.Amf0.Encodable] at h
    exact ⟨_, rfl, mapEqL_refl xs h.2⟩
  | .obj kvs, h => by
    simp only [Spec.Amf3.MapEq]
    simp only [Spec.Amf0.Encodable] at h
    exact ⟨_, _, rfl, List.Perm.refl _, h.1, mapEqF_refl kvs h.2⟩
  | .typed t kvs, h => by
    simp only [Spec.Amf3.MapEq]
    simp only [Spec.Amf0.Encodable] at h
    exact ⟨_, _, rfl, List.Perm.refl _, h.2.1, mapEqF_refl kvs h.2.2⟩
  | .nil, _ => by simp only [Spec.Amf3.MapEq]
  | .bool _, _ => by simp only [Spec.Amf3.MapEq]
  | .f64 _, _ => by simp only [Spec.Amf3.MapEq]
  | .int _ _, _ => by simp only [Spec.Amf3.MapEq]
  | .uint _ _, _ => by simp only [Spec.Amf3.MapEq]
  | .str _, _ => by simp only [Spec.Amf3.MapEq]
  | .bytes _, _ => by simp only [Spec.Amf3.MapEq]
  | .time _, _ => by simp only [Spec.Amf3.MapEq]
  | .ecma _ _, _ => by simp only [Spec.Amf3.MapEq]
  | .shared _, _ => by simp only [Spec.Amf3.MapEq]
  | .other, _ => by simp only [Spec.Amf3.MapEq]
theorem mapEqL_refl : (xs : List Val) → Spec.Amf0.EncodableL xs → Spec.Amf3.MapEqL xs xs
  | [], _ => by simp only [Spec.Amf3.MapEqL]
  | x :: xs, h => by
    simp only [Spec.Amf3.MapEqL]
    simp only [Spec.Amf0.EncodableL] at h
    exact ⟨_, _, rfl, mapEq_refl x h.1, mapEqL_refl xs h.2⟩
theorem mapEqF_refl : (kvs : List (Bytes × Val)) → Spec.Amf0.EncodableF kvs → Spec.Amf3.MapEqF kvs kvs
  | [], _ => by simp only [Spec.Amf3.MapEqF]
  | (k, v) :: r, h => by
    simp only [Spec.Amf3.MapEqF]
    simp only [Spec.Amf0.EncodableF] at h
    exact ⟨_, _, rfl, mapEq_refl v h.2.1, mapEqF_refl r h.2.2⟩
end

theorem perm_short {α} {l l' : List α} (h : l.Perm l') (hl : l.length ≤ 1) : l' = l := by
  match l, l', h with
  | [], l', h => exact List.Perm.eq_nil h.symm
  | [a], l', h => exact List.perm_singleton.1 h.symm
  | _ :: _ :: _, _, _ => simp at hl

mutual
theorem repeat_one : (v w : Val) → Spec.Amf3.MapEq v w → OneMember v → w = v
  | .arr xs, w, h, ho => by
    simp only [Spec.Amf3.MapEq] at h
    obtain ⟨ys, rfl, h⟩ := h
    rw [repeat_oneL xs ys h (by simpa [OneMember] using ho)]
  | .obj kvs, w, h, ho => by
    simp only [Spec.Amf3.MapEq] at h
    obtain ⟨l, l', rfl, hp, hn, h⟩ := h
    simp only [OneMember] at ho
    have h1 := repeat_oneF kvs l h ho.2
    subst h1
    rw [perm_short hp ho.1]
  | .typed t kvs, w, h, ho => by
    simp only [Spec.Amf3.MapEq] at h
    obtain ⟨l, l', rfl, hp, hn, h⟩ := h
    simp only [OneMember] at ho
    have h1 := repeat_oneF kvs l h ho.2
    subst h1
    rw [perm_short hp ho.1]
  | .nil, w, h, _ => by simpa only [Spec.Amf3.MapEq] using h
  | .bool _, w, h, _ => by simpa only [Spec.Amf3.MapEq] using h
  | .f64 _, w, h, _ => by simpa only [Spec.Amf3.MapEq] using h
  | .int _ _, w, h, _ => by simpa only [Spec.Amf3.MapEq] using h
  | .uint _ _, w, h, _ => by simpa only [Spec.Amf3.MapEq] using h
  | .str _, w, h, _ => by simpa only [Spec.Amf3.MapEq] using h
  | .bytes _, w, h, _ => by simpa only [Spec.Amf3.MapEq] using h
  | .time _, w, h, _ => by simpa only [Spec.Amf3.MapEq] using h
  | .ecma _ _, w, h, _ => by simpa only [Spec.Amf3.MapEq] using h
  | .shared _, w, h, _ => by simpa only [Spec.Amf3.MapEq] using h
  | .other, w, h, _ => by simpa only [Spec.Amf3.MapEq] using h
theorem repeat_oneL : (xs ys : List Val) → Spec.Amf3.MapEqL xs ys → OneMemberL xs → ys = xs
  | [], ys, h, _ => by simpa only [Spec.Amf3.MapEqL] using h
  | x :: xs, ys, h, ho => by
    simp only [Spec.Amf3.MapEqL] at h
    obtain ⟨y, t, rfl, h1, h2⟩ := h
    simp only [OneMemberL] at ho
    rw [repeat_one x y h1 ho.1, repeat_oneL xs t h2 ho.2]
theorem repeat_oneF : (kvs l : List (Bytes × Val)) → Spec.Amf3.MapEqF kvs l → OneMemberF kvs → l = kvs
  | [], l, h, _ => by simpa only [Spec.Amf3.MapEqF] using h
  | (k, v) :: r, l, h, ho => by
    simp only [Spec.Amf3.MapEqF] at h
    obtain ⟨w, t, rfl, h1, h2⟩ := h
    simp only [OneMemberF] at ho
    rw [repeat_one v w h1 ho.1, repeat_oneF r t h2 ho.2]
end

/-- C168 (partial), AMF0: a value is written with the same number of bytes, which is the count returned, in whatever order its maps
are visited, and with the same bytes if no map in it has more than one member.  Missing: the same bytes for all values
(`C168_amf0_refuted`). -/
theorem C168_amf0_partial (v w : Val) (h : Spec.Amf3.MapEq v w) (he : Spec.Amf0.Encodable v) :
    (Amf0.encode w Sink.mem).1 = (Amf0.encode v Sink.mem).1 ∧ (Amf0.encode v Sink.mem).1 = .ok (amf0Bytes w).length ∧
    (OneMember v → amf0Bytes w = amf0Bytes v) := by
  have hw := repeat_encodable v w h he
  obtain ⟨cs, h1, h2⟩ := Amf0.emits_wire v he
  obtain ⟨cs', h1', h2'⟩ := Amf0.emits_wire w hw
  have hl := repeat_wire v w h
  have e1 : (Amf0.encode v Sink.mem).1 = .ok (Spec.Amf0.wire v).length := h2.mem.1
  have e2 : (Amf0.encode w Sink.mem).1 = .ok (Spec.Amf0.wire w).length := h2'.mem.1
  refine ⟨by rw [e1, e2, hl], by rw [e1, amf0Bytes_wire w hw, hl], fun ho => by rw [repeat_one v w h ho]⟩

theorem wireF_first {k k' : Bytes} {a b : Bytes} (hk : k.length ≤ 65535) (hk' : k'.length ≤ 65535)
    (h : Spec.Amf0.utf8 k ++ a = Spec.Amf0.utf8 k' ++ b) : k = k' := by
  rw [Spec.Amf0.utf8, Spec.Amf0.utf8, List.append_assoc, List.append_assoc] at h
  obtain ⟨h1, h2⟩ := List.append_inj h rfl
  have h3 := congrArg beNat h1
  rw [beNat_be16 _ (by omega), beNat_be16 _ (by omega)] at h3
  exact (List.append_inj h2 h3).1

/-- C168 fails in AMF0 for every object with more than one member: the object may be written in two ways. -/
theorem C168_amf0_refuted (kvs : List (Bytes × Val)) (he : Spec.Amf0.Encodable (.obj kvs)) (h2 : 2 ≤ kvs.length) :
    ∃ l, l.Perm kvs ∧ Spec.Amf3.MapEq (.obj kvs) (.obj l) ∧ amf0Bytes (.obj l) ≠ amf0Bytes (.obj kvs) := by
  match kvs, h2, he with
  | (k, v) :: (k', v') :: r, _, he =>
    have hp : ((k', v') :: (k, v) :: r).Perm ((k, v) :: (k', v') :: r) := List.Perm.swap _ _ _
    have hn := he
    simp only [Spec.Amf0.Encodable] at hn
    have hm : Spec.Amf3.MapEq (.obj ((k, v) :: (k', v') :: r)) (.obj ((k', v') :: (k, v) :: r)) := by
      simp only [Spec.Amf3.MapEq]
      exact ⟨_, _, rfl, hp.symm, (hp.map Prod.fst).symm.nodup hn.1, mapEqF_refl _ hn.2⟩
    refine ⟨_, hp, hm, fun h => ?_⟩
    rw [amf0Bytes_wire _ (repeat_encodable _ _ hm he), amf0Bytes_wire _ he] at h
    simp only [Spec.Amf0.wire, Spec.Amf0.wireF, List.cons.injEq, true_and, List.append_assoc] at h
    have hf := hn.2
    simp only [Spec.Amf0.EncodableF] at hf
    have := wireF_first hf.2.2.1.2 hf.1.2 h
    have hd := hn.1
    simp [this] at hd

/-- An object with two members, one of which has two members itself. -/
def twoMembers : Val := .obj [([97], .bool true), ([98], .obj [([99], .nil), ([100], .str [101])])]

theorem twoMembers_ok : Spec.Amf0.Encodable twoMembers := by simp [twoMembers, Spec.Amf0.Encodable, Spec.Amf0.EncodableF]

example : ∃ l, l.Perm [([97], .bool true), ([98], .obj [([99], .nil), ([100], .str [101])])] ∧ Spec.Amf3.MapEq twoMembers (.obj l) ∧
    amf0Bytes (.obj l) ≠ amf0Bytes twoMembers := C168_amf0_refuted _ twoMembers_ok (by simp)

example : (Amf0.encode (.obj [([98], .nil), ([97], .bool true)]) Sink.mem).1 = (Amf0.encode (.obj [([97], .bool true), ([98], .nil)]) Sink.mem).1 :=
  (C168_amf0_partial _ _ (by
    simp only [Spec.Amf3.MapEq]
    exact ⟨[([97], .bool true), ([98], .nil)], _, rfl, List.Perm.swap _ _ _, by decide, by simp [Spec.Amf3.MapEqF, Spec.Amf3.MapEq]⟩)
    (by simp [Spec.Amf0.Encodable, Spec.Amf0.EncodableF])).1

example : OneMember (.arr [.obj [([97], .arr [.nil, .str [98]])], .typed [99] []]) := by simp [OneMember, OneMemberL, OneMemberF]

/-! ## SIP -/

section sip
open Verif.Str Verif.Sips Verif.Spec Verif.Spec.Sips

theorem hdrBytes_perm {h h' : Hdr} (hp : h.Perm h') : (hdrBytes h).Perm (hdrBytes h') := by
  rw [hdrBytes, hdrBytes]
  exact (hp.map _).flatten

/-- C168 (partial), SIP: whether a message can be written, the message object afterwards and the number of bytes do not depend on the
order in which the header map is visited.  Missing: the same bytes (`C168_sip_refuted`; for what the reader of the message makes of
it, C165). -/
theorem C168_sip_partial (U : Unicode) (order order' : Hdr → Hdr) (ho : ∀ x, (order x).Perm x) (ho' : ∀ x, (order' x).Perm x) (s : Sip) :
    (s.bytes U order').2 = (s.bytes U order).2 ∧
    ∀ w, (s.bytes U order).1 = .ok w → ∃ w', (s.bytes U order').1 = .ok w' ∧ w'.length = w.length ∧ w'.Perm w := by
  rw [Sip.bytes, Sip.bytes]
  cases hl : firstLineBytes s with
  | ok l =>
    cases hh : s.headers with
    | none => simp
    | some h =>
      refine ⟨rfl, fun w hw => ?_⟩
      simp only [Res.ok.injEq] at hw
      subst hw
      have hp := hdrBytes_perm ((ho' (setContentLength U h s.payload.length)).trans (ho (setContentLength U h s.payload.length)).symm)
      have := (hp.append_left (l ++ b!"\r\n")).append_right (if s.payload.length > 0 then b!"\r\n" ++ s.payload else [])
      exact ⟨_, rfl, this.length_eq, this⟩
  | err e => simp
  | panic => simp
  | diverge => simp

/-- The order that visits the header `k` first. -/
def firstOrder (k : Bytes) (h : Hdr) : Hdr := h.filter (fun e => e.1 == k) ++ h.filter (fun e => !(e.1 == k))

theorem firstOrder_perm (k : Bytes) (h : Hdr) : (firstOrder k h).Perm h := List.filter_append_perm _ _

theorem firstOrder_head (k : Bytes) (h : Hdr) (hk : ∃ e ∈ h, e.1 = k) : ∃ x, hdrBytes (firstOrder k h) = k ++ 0x3a :: x := by
  obtain ⟨e, he, rfl⟩ := hk
  have hm : e ∈ h.filter (fun f => f.1 == e.1) := by simp [he]
  rw [firstOrder]
  generalize hf : h.filter (fun f => f.1 == e.1) = l at hm
  match l, hm with
  | f :: l, _ =>
    have hfm : f ∈ h.filter (fun f => f.1 == e.1) := by rw [hf]; simp
    have hk : f.1 = e.1 := by simpa using (List.mem_filter.1 hfm).2
    rw [hdrBytes, List.cons_append, List.map_cons, List.flatten_cons, headerItem, hk]
    exact ⟨_, by rw [List.append_assoc, List.append_assoc]; rfl⟩

theorem colon_first {k k' x y : Bytes} (hk : (0x3a : UInt8) ∉ k) (hk' : (0x3a : UInt8) ∉ k') (h : k ++ 0x3a :: x = k' ++ 0x3a :: y) : k = k' := by
  induction k generalizing k' with
  | nil =>
    cases k' with
    | nil => rfl
    | cons b k' => simp at h; simp [← h.1] at hk'
  | cons a k ih =>
    cases k' with
    | nil => simp at h; simp [h.1] at hk
    | cons b k' =>
      simp only [List.cons_append, List.cons.injEq] at h
      simp only [List.mem_cons, not_or] at hk hk'
      rw [h.1, ih hk.2 hk'.2 h.2]

/-- C168 fails for every SIP message that has a header besides `Content-Length`: it may be written in two ways. -/
theorem C168_sip_refuted (U : Unicode) (s : Sip) (h : Hdr) (hs : s.headers = some h) (hreq : s.isResponse = true ∨ s.request ≠ none)
    (e : Bytes × List Bytes) (he : e ∈ h) (hc : (0x3a : UInt8) ∉ e.1) (hn : e.1 ≠ text "content-length") :
    ∃ order order' : Hdr → Hdr, (∀ x, (order x).Perm x) ∧ (∀ x, (order' x).Perm x) ∧
      ∃ w w', (s.bytes U order).1 = .ok w ∧ (s.bytes U order').1 = .ok w' ∧ w ≠ w' := by
  have hn : e.1 ≠ b!"content-length" := fun h => hn (h.trans (by decide +kernel))
  refine ⟨firstOrder e.1, firstOrder b!"content-length", firstOrder_perm _, firstOrder_perm _, ?_⟩
  have hset : setContentLength U h s.payload.length = mset h b!"content-length" [itoa s.payload.length] := by
    rw [setContentLength, setFirstHeader, lower_cl]
  obtain ⟨x, hx⟩ := firstOrder_head e.1 (setContentLength U h s.payload.length)
    ⟨e, by rw [hset, mem_mset_iff]; exact .inr ⟨he, hn⟩, rfl⟩
  obtain ⟨y, hy⟩ := firstOrder_head b!"content-length" (setContentLength U h s.payload.length)
    ⟨(b!"content-length", [itoa s.payload.length]), by rw [hset, mem_mset_iff]; exact .inl rfl, rfl⟩
  have hl : ∃ l, firstLineBytes s = .ok l := by
    rw [firstLineBytes]
    by_cases hr : s.isResponse
    · rw [if_pos hr]; exact ⟨_, rfl⟩
    · rw [if_neg hr]
      cases hq : s.request with
      | none => exact absurd hq (hreq.resolve_left hr)
      | some q => exact ⟨_, rfl⟩
  obtain ⟨l, hl⟩ := hl
  rw [Sip.bytes, Sip.bytes, hl, hs]
  refine ⟨_, _, rfl, rfl, fun h => ?_⟩
  rw [hx, hy] at h
  rw [List.append_assoc, List.append_assoc (l ++ _)] at h
  have h := List.append_cancel_left h
  rw [List.append_assoc, List.append_assoc b!"content-length"] at h
  exact hn (colon_first hc (by decide) h)

example (U : Unicode) : ∃ order order' : Hdr → Hdr, (∀ x, (order x).Perm x) ∧ (∀ x, (order' x).Perm x) ∧
    ∃ w w', ((makeResponse 200 (some [(text "call-id", [text "a84b4c76e66710"])]) []).bytes U order).1 = .ok w ∧
      ((makeResponse 200 (some [(text "call-id", [text "a84b4c76e66710"])]) []).bytes U order').1 = .ok w' ∧ w ≠ w' :=
  C168_sip_refuted U _ _ rfl (.inl rfl) (text "call-id", [text "a84b4c76e66710"]) (by simp) (by decide +kernel) (by decide +kernel)

end sip

end Verif.Props
