import Verif.Props.Amf3
/-!
# Property C35: how far the finding about AMF3 object references reaches

The counterexamples of `Verif/Props/Amf3.lean` are instances of these general statements.
-/
namespace Verif.Props
open Verif Verif.Amf Verif.Amf3 Verif.Spec.Amf Verif.Spec.Amf3

/-- The object table is unchanged. -/
def ObjTabEq (s s' : St) : Prop := s'.objTab = s.objTab

theorem frame_objTabEq : Frame ObjTabEq := ⟨fun _ => rfl, fun _ _ _ h1 h2 => h2.trans h1, fun _ _ => rfl⟩

theorem objTab_decodeString : Keep ObjTabEq Amf3.decodeString := by
  have F := frame_objTabEq
  refine (keep_decodeUint29 F).bind F fun ⟨isRef, refVal⟩ => ?_
  refine Keep.ite ?_ (Keep.ite (Keep.pure F _) ?_)
  · exact (Keep.get F).bind F fun s => Keep.ite (Keep.fail F _) (Keep.lift F _)
  · exact (Keep.readBytes F _).bind F fun _ => Keep.bind F (Keep.modify _ fun s => rfl) fun _ => Keep.pure F _

theorem objTab_propNames (n : Nat) (acc) : Keep ObjTabEq (propNames n acc) := by
  induction n generalizing acc with
  | zero => exact Keep.pure frame_objTabEq _
  | succ n ih => exact objTab_decodeString.bind frame_objTabEq fun v => ih _

theorem objTab_decodeTrait (refVal : UInt32) : Keep ObjTabEq (decodeTrait refVal) := by
  have G := frame_objTabEq
  refine Keep.ite ?_ ?_
  · exact (Keep.get G).bind G fun s => Keep.ite (Keep.fail G _) (Keep.lift G _)
  · exact objTab_decodeString.bind G fun _ => (objTab_propNames _ _).bind G fun _ =>
      Keep.bind G (Keep.modify _ fun s => rfl) fun _ => Keep.pure G _

/-- An entry of the object table stays. -/
theorem objEntry_keep {i : Nat} {v : Val} {s t : St} (h : SameObj (i + 1) s t) (e : s.objTab[i]? = some v) : t.objTab[i]? = some v := by
  have hl : i + 1 ≤ s.objTab.length := (List.getElem?_eq_some_iff.mp e).1
  have := congrArg (fun l => l[i]?) (h hl).2
  simpa [List.getElem?_take, e] using this

/-- After `pushObj` the entry is there, whatever follows. -/
theorem pushed_entry {α} (v : Val) (f : GoM St α) (s : St) (hf : Keep (SameObj (s.objTab.length + 1)) f) :
    ((pushObj v >>= fun _ => f) s).2.objTab[s.objTab.length]? = some v := by
  rw [GoM.bind_apply]
  exact objEntry_keep (hf _) (by simp [pushObj])

/-- The entry that an object sent in full gets. -/
theorem object_entry (k : Nat) (hk : k < 2 ^ 28) (s : St) (ht : TraitsOk s) (H : Handlers) (hc : s.Contig) (data : Bytes) (v : Val) (s1 : St)
    (hd : s.data = 10 :: u29 (2 * k + 1) ++ data) (h1 : Amf3.decode H s = (.ok v, s1)) : s1.objTab[s.objTab.length]? = some .nil := by
  rw [agree_decode H (fun _ => none) s ht] at h1
  obtain ⟨s0, g1, g2, -, -, g5⟩ := decodeUint29_run (2 * k + 1) (by omega) { s with data := u29 (2 * k + 1) ++ data } data hc rfl
  have hdec : Amf3.decode (fun _ => none) s = Amf3.decodeObject (fun _ => none) (Amf3.dec (fun _ => none) s.data.length) s.data.length
      { s with data := u29 (2 * k + 1) ++ data } := by
    show Amf3.dec (fun _ => none) (s.data.length + 1) s = _
    rw [Amf3.dec_succ, GoM.bind_apply, Safe.readByte_cons (x := 10) (t := u29 (2 * k + 1) ++ data) (by simpa using hd)]
    rfl
  have ho : s0.objTab = s.objTab := g5.2.1
  rw [hdec, Amf3.decodeObject, GoM.bind_apply, g1] at h1
  simp only [show decide ((2 * k + 1) % 2 = 0) = false by simp, Bool.false_eq_true, if_false] at h1
  rw [GoM.bind_apply] at h1
  have hk := objTab_decodeTrait (UInt32.ofNat ((2 * k + 1) / 2)) s0
  rcases htr : decodeTrait (UInt32.ofNat ((2 * k + 1) / 2)) s0 with ⟨r, s2⟩
  rw [htr] at h1 hk
  have hk : s2.objTab = s0.objTab := hk
  cases r with
  | ok t =>
    simp only at h1
    have hl : s2.objTab.length = s.objTab.length := by rw [hk, ho]
    have F := frame_sameObj (s2.objTab.length + 1)
    have G := F.toFrame
    have hd := keep_dec F (fun _ => none) (by simp) s.data.length
    have := congrArg Prod.snd h1
    rw [← show _ = s1 from this, ← hl]
    refine pushed_entry .nil _ s2 ?_
    refine Keep.ite (keep_decodeExt F (fun _ => none) (by simp) hd _ _) ((keep_propVals F hd _ _).bind G fun o => ?_)
    refine Keep.ite ?_ ((Keep.pure G _).bind G fun _ => Keep.pure G _)
    exact (keep_decodeString F).bind G fun _ => (keep_assocLoop F hd _ _ _).bind G fun _ => Keep.pure G _
  | _ => simp at h1

/-- The entry that an array sent in full gets. -/
theorem array_entry (k : Nat) (hk : k < 2 ^ 28) (s : St) (ht : TraitsOk s) (H : Handlers) (hc : s.Contig) (data : Bytes) (v : Val) (s1 : St)
    (hd : s.data = 9 :: u29 (2 * k + 1) ++ data) (h1 : Amf3.decode H s = (.ok v, s1)) : s1.objTab[s.objTab.length]? = some (.ecma [] []) := by
  rw [agree_decode H (fun _ => none) s ht] at h1
  obtain ⟨s0, g1, g2, -, -, g5⟩ := decodeUint29_run (2 * k + 1) (by omega) { s with data := u29 (2 * k + 1) ++ data } data hc rfl
  have hdec : Amf3.decode (fun _ => none) s = Amf3.decodeArray (Amf3.dec (fun _ => none) s.data.length) s.data.length
      { s with data := u29 (2 * k + 1) ++ data } := by
    show Amf3.dec (fun _ => none) (s.data.length + 1) s = _
    rw [Amf3.dec_succ, GoM.bind_apply, Safe.readByte_cons (x := 9) (t := u29 (2 * k + 1) ++ data) (by simpa using hd)]
    rfl
  have ho : s0.objTab = s.objTab := g5.2.1
  rw [hdec, Amf3.decodeArray, GoM.bind_apply, g1] at h1
  simp only [show decide ((2 * k + 1) % 2 = 0) = false by simp, Bool.false_eq_true, if_false] at h1
  rw [GoM.bind_apply] at h1
  have hk := objTab_decodeString s0
  rcases htr : Amf3.decodeString s0 with ⟨r, s2⟩
  rw [htr] at h1 hk
  have hk : s2.objTab = s0.objTab := hk
  cases r with
  | ok t =>
    simp only at h1
    have hl : s2.objTab.length = s.objTab.length := by rw [hk, ho]
    have F := frame_sameObj (s2.objTab.length + 1)
    have G := F.toFrame
    have hd := keep_dec F (fun _ => none) (by simp) s.data.length
    have := congrArg Prod.snd h1
    rw [← show _ = s1 from this, ← hl]
    refine pushed_entry (.ecma [] []) _ s2 ?_
    exact (keep_assocLoop F hd _ _ _).bind G fun _ => (keep_denseLoop F hd _ _).bind G fun _ => Keep.pure G _
  | _ => simp at h1

/-- C35 fails for every object sent in full (header number `2k+1`), whatever its class, members and nesting are: at any later time
a reference to it is decoded to nil. -/
theorem C35_amf3_object_refuted (H : Handlers) (s : St) (hs : Reached (Amf3.decode H) s) (hc : s.Contig) (hn : s.objTab.length < 2 ^ 28)
    (k : Nat) (hk : k < 2 ^ 28) (data : Bytes) (hd : s.data = 10 :: u29 (2 * k + 1) ++ data) (kvs : List (Bytes × Val)) (s1 : St)
    (h1 : Amf3.decode H s = (.ok (.obj kvs), s1)) (s2 : St) (hl : Later (Amf3.decode H) s1 s2) (hc2 : s2.Contig) (rest : Bytes)
    (hd2 : s2.data = 10 :: u29 (2 * s.objTab.length) ++ rest) :
    ∃ s3, Amf3.decode H s2 = (.ok .nil, s3) ∧ s3.data = rest := by
  have ht := reached3_traitsOk H hs
  have e1 := object_entry k hk s ht H hc data _ s1 hd h1
  have e2 := objEntry_keep (later_sameObj H (s.objTab.length + 1) hl (decode_traitsOk H s _ s1 ht h1)) e1
  exact decode_ref H 10 _ hn .nil s2 rest hc2 hd2 e2 (by simp)

/-- C35 fails for every array sent in full, whatever its elements are: at any later time a reference to it is decoded to an empty
array. -/
theorem C35_amf3_array_refuted (H : Handlers) (s : St) (hs : Reached (Amf3.decode H) s) (hc : s.Contig) (hn : s.objTab.length < 2 ^ 28)
    (k : Nat) (hk : k < 2 ^ 28) (data : Bytes) (hd : s.data = 9 :: u29 (2 * k + 1) ++ data) (dense : List Val) (assoc : List (Bytes × Val)) (s1 : St)
    (h1 : Amf3.decode H s = (.ok (.ecma dense assoc), s1)) (s2 : St) (hl : Later (Amf3.decode H) s1 s2) (hc2 : s2.Contig) (rest : Bytes)
    (hd2 : s2.data = 9 :: u29 (2 * s.objTab.length) ++ rest) :
    ∃ s3, Amf3.decode H s2 = (.ok (.ecma [] []), s3) ∧ s3.data = rest := by
  have ht := reached3_traitsOk H hs
  have e1 := array_entry k hk s ht H hc data _ s1 hd h1
  have e2 := objEntry_keep (later_sameObj H (s.objTab.length + 1) hl (decode_traitsOk H s _ s1 ht h1)) e1
  exact decode_ref H 9 _ hn (.ecma [] []) s2 rest hc2 hd2 e2 (.inr (.inr (.inr (.inl ⟨rfl, _, _, rfl⟩))))

example (s2 : St) (hl : Later (Amf3.decode (fun _ => none)) (Amf3.decode (fun _ => none) (St.buffer [10, 19, 1, 3, 97, 3])).2 s2) (hc2 : s2.Contig)
    (rest : Bytes) (hd2 : s2.data = 10 :: u29 (2 * 0) ++ rest) : ∃ s3, Amf3.decode (fun _ => none) s2 = (.ok .nil, s3) ∧ s3.data = rest :=
  C35_amf3_object_refuted (fun _ => none) (St.buffer [10, 19, 1, 3, 97, 3]) ⟨[], false, fun n => n, .refl _ _ _ _⟩ (fun _ => Nat.le_refl _)
    (by decide) 9 (by decide) [1, 3, 97, 3] (by decide) [([97], .bool true)] _
    (Prod.ext (C35_amf3_references_refuted (fun _ => none)).1 rfl) s2 hl hc2 rest hd2

example (s2 : St) (hl : Later (Amf3.decode (fun _ => none)) (Amf3.decode (fun _ => none) (St.buffer [9, 3, 1, 3])).2 s2) (hc2 : s2.Contig)
    (rest : Bytes) (hd2 : s2.data = 9 :: u29 (2 * 0) ++ rest) : ∃ s3, Amf3.decode (fun _ => none) s2 = (.ok (.ecma [] []), s3) ∧ s3.data = rest :=
  C35_amf3_array_refuted (fun _ => none) (St.buffer [9, 3, 1, 3]) ⟨[], false, fun n => n, .refl _ _ _ _⟩ (fun _ => Nat.le_refl _)
    (by decide) 1 (by decide) [1, 3] (by decide) [.bool true] [] _
    (Prod.ext (C35_amf3_references_refuted (fun _ => none)).2.2.1 rfl) s2 hl hc2 rest hd2

end Verif.Props
