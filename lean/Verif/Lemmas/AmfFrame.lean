import Verif.Lemmas.AmfBatch
/-! # What decoding leaves unchanged in the decoder tables -/
namespace Verif.Amf

/-- Every run of `m` relates its start and end state by `R`. -/
def Keep {α} (R : St → St → Prop) (m : GoM St α) : Prop := ∀ s, R s (m s).2

/-- A reflexive and transitive relation that does not look at the data. -/
structure Frame (R : St → St → Prop) : Prop where
  refl : ∀ s, R s s
  trans : ∀ s t u, R s t → R t u → R s u
  data : ∀ s d, R s { s with data := d }

namespace Keep
variable {α β : Type} {R : St → St → Prop}

theorem bind (F : Frame R) {m : GoM St α} {f : α → GoM St β} (h1 : Keep R m) (h2 : ∀ a, Keep R (f a)) : Keep R (m >>= f) := by
  intro s
  have h := h1 s
  simp only [GoM.bind_apply]
  rcases hm : m s with ⟨r, s'⟩
  rw [hm] at h
  cases r with
  | ok a => exact F.trans _ _ _ h (h2 a s')
  | _ => exact h

theorem pure (F : Frame R) (a : α) : Keep R (Pure.pure a : GoM St α) := fun s => F.refl s
theorem fail (F : Frame R) (e : Err) : Keep R (GoM.fail e : GoM St α) := fun s => F.refl s
theorem diverge (F : Frame R) : Keep R (GoM.diverge : GoM St α) := fun s => F.refl s
theorem get (F : Frame R) : Keep R GoM.get := fun s => F.refl s
theorem lift (F : Frame R) (r : Res α) : Keep R (GoM.lift r) := fun s => F.refl s
theorem modify (f : St → St) (h : ∀ s, R s (f s)) : Keep R (GoM.modify f) := h
theorem ite {p : Prop} [Decidable p] {m m' : GoM St α} (h1 : Keep R m) (h2 : Keep R m') : Keep R (if p then m else m') := by
  split <;> assumption

theorem rawRead (F : Frame R) (n : Nat) : Keep R (Amf.rawRead n) := by
  intro s
  unfold Amf.rawRead
  split
  · split <;> exact F.refl s
  · exact F.data _ _
theorem readFull (F : Frame R) (n : Nat) : Keep R (Amf.readFull n) := by
  intro s
  unfold Amf.readFull
  split
  · exact F.refl s
  · split <;> exact F.data _ _
theorem readBytes (F : Frame R) (n : Nat) : Keep R (Amf.readBytes n) :=
  (rawRead F n).bind F fun _ => ite (fail F _) (pure F _)
theorem readByte (F : Frame R) : Keep R Amf.readByte := (readBytes F 1).bind F fun _ => lift F _
theorem nextByteMustBe (F : Frame R) (x : UInt8) : Keep R (Amf.nextByteMustBe x) :=
  (readByte F).bind F fun _ => ite (fail F _) (pure F _)
end Keep
end Verif.Amf

namespace Verif.Amf3
open Verif.Amf
variable {R : St → St → Prop}

/-- A frame that allows appending to the AMF3 tables. -/
structure Frame3 (R : St → St → Prop) : Prop extends Frame R where
  str : ∀ s x, R s { s with strTab := s.strTab ++ [x] }
  obj : ∀ s x, R s { s with objTab := s.objTab ++ [x] }
  tra : ∀ s x, R s { s with traits := s.traits ++ [x] }

theorem keep_u29Loop (F : Frame R) (i : Nat) (ret : UInt32) : Keep R (u29Loop i ret) := by
  induction i generalizing ret with
  | zero => exact (Keep.readByte F).bind F fun _ => Keep.pure F _
  | succ i ih => exact (Keep.readByte F).bind F fun _ => Keep.ite (Keep.pure F _) (ih _)

theorem keep_decodeUint29 (F : Frame R) : Keep R decodeUint29 := (keep_u29Loop F 3 0).bind F fun _ => Keep.pure F _

theorem keep_decodeString (F : Frame3 R) : Keep R decodeString := by
  refine (keep_decodeUint29 F.toFrame).bind F.toFrame fun ⟨isRef, refVal⟩ => ?_
  refine Keep.ite ?_ (Keep.ite (Keep.pure F.toFrame _) ?_)
  · exact (Keep.get F.toFrame).bind F.toFrame fun s => Keep.ite (Keep.fail F.toFrame _) (Keep.lift F.toFrame _)
  · exact (Keep.readBytes F.toFrame _).bind F.toFrame fun _ =>
      (Keep.modify _ fun s => F.str s _).bind F.toFrame fun _ => Keep.pure F.toFrame _

theorem keep_objRef (F : Frame R) (i : Nat) : Keep R (objRef i) :=
  (Keep.get F).bind F fun _ => Keep.ite (Keep.fail F _) (Keep.lift F _)

theorem keep_pushObj (F : Frame3 R) (v : Val) : Keep R (pushObj v) := Keep.modify _ fun s => F.obj s _

theorem keep_readF64 (F : Frame R) : Keep R readF64 := (Keep.readFull F _).bind F fun _ => Keep.pure F _

theorem keep_mapErr {α} {e : Err} {m : GoM St α} (h : Keep R m) : Keep R (mapErr e m) := by
  intro s
  have h1 := h s
  unfold mapErr
  rcases hm : m s with ⟨r, s'⟩
  rw [hm] at h1
  cases r <;> exact h1

theorem keep_decodeDate (F : Frame3 R) : Keep R decodeDate := by
  refine (keep_decodeUint29 F.toFrame).bind F.toFrame fun ⟨isRef, refVal⟩ => ?_
  refine Keep.ite ?_ ?_
  · refine (keep_objRef F.toFrame _).bind F.toFrame fun v => ?_
    cases v <;> first | exact Keep.pure F.toFrame _ | exact Keep.fail F.toFrame _
  · exact (keep_mapErr (keep_readF64 F.toFrame)).bind F.toFrame fun f =>
      (keep_pushObj F _).bind F.toFrame fun _ => Keep.pure F.toFrame _

theorem keep_assocLoop (F : Frame3 R) {d : GoM St Val} (hd : Keep R d) (fuel : Nat) (key acc) :
    Keep R (assocLoop d fuel key acc) := by
  induction fuel generalizing key acc with
  | zero => exact Keep.diverge F.toFrame
  | succ n ih =>
    exact Keep.ite (Keep.pure F.toFrame _) (Keep.bind F.toFrame hd fun v => (keep_decodeString F).bind F.toFrame fun _ => ih _ _)

theorem keep_denseLoop (F : Frame3 R) {d : GoM St Val} (hd : Keep R d) (n : Nat) (acc) : Keep R (denseLoop d n acc) := by
  induction n generalizing acc with
  | zero => exact Keep.pure F.toFrame _
  | succ n ih => exact Keep.bind F.toFrame hd fun v => ih _

theorem keep_decodeArray (F : Frame3 R) {d : GoM St Val} (hd : Keep R d) (fuel : Nat) : Keep R (decodeArray d fuel) := by
  refine (keep_decodeUint29 F.toFrame).bind F.toFrame fun ⟨isRef, refVal⟩ => ?_
  refine Keep.ite ?_ ?_
  · refine (keep_objRef F.toFrame _).bind F.toFrame fun v => ?_
    cases v <;> first | exact Keep.pure F.toFrame _ | exact Keep.fail F.toFrame _
  · exact (keep_decodeString F).bind F.toFrame fun key => (keep_pushObj F _).bind F.toFrame fun _ =>
      (keep_assocLoop F hd _ _ _).bind F.toFrame fun _ => (keep_denseLoop F hd _ _).bind F.toFrame fun _ => Keep.pure F.toFrame _

theorem keep_propNames (F : Frame3 R) (n : Nat) (acc) : Keep R (propNames n acc) := by
  induction n generalizing acc with
  | zero => exact Keep.pure F.toFrame _
  | succ n ih => exact (keep_decodeString F).bind F.toFrame fun v => ih _

theorem keep_propVals (F : Frame3 R) {d : GoM St Val} (hd : Keep R d) (ks acc) : Keep R (propVals d ks acc) := by
  induction ks generalizing acc with
  | nil => exact Keep.pure F.toFrame _
  | cons k ks ih => exact Keep.bind F.toFrame hd fun v => ih _

theorem keep_readFlags (F : Frame R) (n : Nat) (acc) : Keep R (readFlags n acc) := by
  induction n generalizing acc with
  | zero => exact Keep.diverge F
  | succ n ih => exact (Keep.readByte F).bind F fun _ => Keep.ite (Keep.pure F _) (ih _)

theorem keep_namedFields (F : Frame R) {d : GoM St Val} (hd : Keep R d) (flags p names obj) :
    Keep R (namedFields d flags p names obj) := by
  induction names generalizing p obj with
  | nil => exact Keep.pure F _
  | cons k ks ih => exact Keep.ite (Keep.bind F hd fun v => ih _ _) (ih _ _)

theorem keep_extraFields (F : Frame R) {d : GoM St Val} (hd : Keep R d) (flags i n obj) :
    Keep R (extraFields d flags i n obj) := by
  induction n generalizing obj with
  | zero => exact Keep.pure F _
  | succ n ih => exact Keep.ite (Keep.bind F hd fun v => ih _) (ih _)

theorem keep_flagSets (F : Frame R) {d : GoM St Val} (hd : Keep R d) (fs i flags obj) :
    Keep R (flagSets d fs i flags obj) := by
  induction flags generalizing i obj with
  | nil => exact Keep.pure F _
  | cons k ks ih =>
    exact (keep_namedFields F hd _ _ _ _).bind F fun _ =>
      Keep.ite ((keep_extraFields F hd _ _ _ _).bind F fun _ => ih _ _) ((Keep.pure F _).bind F fun _ => ih _ _)

theorem keep_decodeExternal (F : Frame R) {d : GoM St Val} (hd : Keep R d) (n obj fs) :
    Keep R (decodeExternal d n obj fs) := (keep_readFlags F _ _).bind F fun _ => keep_flagSets F hd _ _ _ _

theorem keep_decodeExt (F : Frame3 R) (H : Handlers) (hH : ∀ t h, H t = some h → Keep R h) {d : GoM St Val}
    (hd : Keep R d) (n t) : Keep R (decodeExt H d n t) := by
  have G := F.toFrame
  have ha : Keep R (decodeAsyncMessage d n) :=
    (keep_decodeExternal G hd _ _ _).bind G fun _ => keep_decodeExternal G hd _ _ _
  refine Keep.ite ?_ (Keep.ite ?_ (Keep.ite ?_ ?_))
  · exact ha.bind G fun _ => Keep.pure G _
  · exact (ha.bind G fun _ => keep_decodeExternal G hd _ _ _).bind G fun _ => Keep.pure G _
  · exact Keep.bind G hd fun _ => (keep_pushObj F _).bind G fun _ => Keep.pure G _
  · cases h : H t with
    | none => exact Keep.fail G _
    | some k => exact hH t k h

theorem keep_decodeTrait (F : Frame3 R) (refVal : UInt32) : Keep R (decodeTrait refVal) := by
  have G := F.toFrame
  refine Keep.ite ?_ ?_
  · exact (Keep.get G).bind G fun s => Keep.ite (Keep.fail G _) (Keep.lift G _)
  · exact (keep_decodeString F).bind G fun _ => (keep_propNames F _ _).bind G fun _ =>
      (Keep.modify _ fun s => F.tra s _).bind G fun _ => Keep.pure G _

theorem keep_decodeObject (F : Frame3 R) (H : Handlers) (hH : ∀ t h, H t = some h → Keep R h) {d : GoM St Val}
    (hd : Keep R d) (fuel : Nat) : Keep R (decodeObject H d fuel) := by
  have G := F.toFrame
  refine (keep_decodeUint29 G).bind G fun ⟨isRef, refVal⟩ => ?_
  refine Keep.ite (keep_objRef G _) ?_
  refine (keep_decodeTrait F _).bind G fun t => (keep_pushObj F _).bind G fun _ => ?_
  refine Keep.ite (keep_decodeExt F H hH hd _ _) ((keep_propVals F hd _ _).bind G fun o => ?_)
  refine Keep.ite ?_ ((Keep.pure G _).bind G fun _ => Keep.pure G _)
  exact (keep_decodeString F).bind G fun _ => (keep_assocLoop F hd _ _ _).bind G fun _ => Keep.pure G _

theorem keep_readPadded (F : Frame R) (n : Nat) : Keep R (readPadded n) := (Keep.rawRead F n).bind F fun _ => Keep.pure F _

theorem keep_decodeXmlDoc (F : Frame3 R) : Keep R decodeXmlDoc := by
  have G := F.toFrame
  refine (keep_decodeUint29 G).bind G fun ⟨isRef, refVal⟩ => ?_
  refine Keep.ite ?_ (Keep.ite (Keep.pure G _) ?_)
  · refine (keep_objRef G _).bind G fun v => ?_
    cases v <;> first | exact Keep.pure G _ | exact Keep.fail G _
  · exact (keep_readPadded G _).bind G fun _ => (keep_pushObj F _).bind G fun _ => Keep.pure G _

theorem keep_decodeByteArray (F : Frame3 R) : Keep R decodeByteArray := by
  have G := F.toFrame
  refine (keep_decodeUint29 G).bind G fun ⟨isRef, refVal⟩ => ?_
  refine Keep.ite ?_ (Keep.ite (Keep.pure G _) ?_)
  · refine (keep_objRef G _).bind G fun v => ?_
    cases v <;> first | exact Keep.pure G _ | exact Keep.fail G _
  · exact (keep_readPadded G _).bind G fun _ => (keep_pushObj F _).bind G fun _ => Keep.pure G _

theorem keep_dec (F : Frame3 R) (H : Handlers) (hH : ∀ t h, H t = some h → Keep R h) (fuel : Nat) :
    Keep R (dec H fuel) := by
  have G := F.toFrame
  induction fuel with
  | zero => exact Keep.diverge G
  | succ n ih =>
    unfold dec
    refine (Keep.readByte G).bind G fun m => ?_
    repeat' refine Keep.ite ?_ ?_
    all_goals first
      | exact Keep.pure G _
      | exact Keep.fail G _
      | exact (keep_u29Loop G 3 0).bind G fun _ => Keep.pure G _
      | exact (keep_readF64 G).bind G fun _ => Keep.pure G _
      | exact (keep_decodeString F).bind G fun _ => Keep.pure G _
      | exact keep_decodeXmlDoc F
      | exact keep_decodeDate F
      | exact keep_decodeArray F ih _
      | exact keep_decodeObject F H hH ih _
      | exact keep_decodeByteArray F

theorem keep_decode (F : Frame3 R) (H : Handlers) (hH : ∀ t h, H t = some h → Keep R h) : Keep R (decode H) :=
  fun s => keep_dec F H hH _ s

/-- The first `k` entries of the object table are unchanged. -/
def SameObj (k : Nat) (s s' : St) : Prop :=
  k ≤ s.objTab.length → k ≤ s'.objTab.length ∧ s'.objTab.take k = s.objTab.take k

theorem frame_sameObj (k : Nat) : Frame3 (SameObj k) where
  refl _ h := ⟨h, rfl⟩
  trans _ _ _ h1 h2 h := by
    obtain ⟨a, b⟩ := h1 h
    obtain ⟨c, d⟩ := h2 a
    exact ⟨c, d.trans b⟩
  data _ _ h := ⟨h, rfl⟩
  str _ _ h := ⟨h, rfl⟩
  obj s x h := ⟨by simp; omega, List.take_append_of_le_length h⟩
  tra _ _ h := ⟨h, rfl⟩

/-- The first `k` entries of the trait table are unchanged. -/
def SameTraits (k : Nat) (s s' : St) : Prop :=
  k ≤ s.traits.length → k ≤ s'.traits.length ∧ s'.traits.take k = s.traits.take k

/-- The first `k` entries of the string table are unchanged. -/
def SameStr (k : Nat) (s s' : St) : Prop :=
  k ≤ s.strTab.length → k ≤ s'.strTab.length ∧ s'.strTab.take k = s.strTab.take k

/-! ## Handlers are never called -/

/-- The two computations do the same on states whose traits are all non-externalizable. -/
def Agree {α} (m m' : GoM St α) : Prop := ∀ s, TraitsOk s → m s = m' s ∧ TraitsOk (m s).2

namespace Agree
variable {α β : Type}

theorem bindQ {m m' : GoM St α} {f f' : α → GoM St β} (Q : α → Prop)
    (hQ : ∀ s s' a, TraitsOk s → m s = (.ok a, s') → Q a)
    (h1 : Agree m m') (h2 : ∀ a, Q a → Agree (f a) (f' a)) :
    Agree (m >>= f) (m' >>= f') := by
  intro s hs
  obtain ⟨h, ht⟩ := h1 s hs
  simp only [GoM.bind_apply, ← h]
  rcases hm : m s with ⟨r, s'⟩
  rw [hm] at ht
  cases r with
  | ok a => exact h2 a (hQ s s' a hs hm) s' ht
  | _ => exact ⟨rfl, ht⟩
theorem bind {m m' : GoM St α} {f f' : α → GoM St β} (h1 : Agree m m') (h2 : ∀ a, Agree (f a) (f' a)) :
    Agree (m >>= f) (m' >>= f') := bindQ (fun _ => True) (fun _ _ _ _ _ => trivial) h1 fun a _ => h2 a
theorem ite {p : Prop} [Decidable p] {m m' k k' : GoM St α} (h1 : Agree m m') (h2 : Agree k k') :
    Agree (if p then m else k) (if p then m' else k') := by split <;> assumption
/-- Something that keeps `TraitsOk` agrees with itself. -/
theorem of_safe {m : GoM St α} (h : ∀ N, Safe false N 0 m) : Agree m m := fun s hs =>
  ⟨rfl, (h s.data.length s (Nat.le_refl _) hs).2.2.2.2⟩
theorem pure (a : α) : Agree (Pure.pure a : GoM St α) (Pure.pure a) := of_safe fun _ => Safe.pure a
theorem fail (e : Err) : Agree (GoM.fail e : GoM St α) (GoM.fail e) := of_safe fun _ => Safe.fail e
theorem diverge : Agree (GoM.diverge : GoM St α) GoM.diverge := fun _ hs => ⟨rfl, hs⟩
end Agree

theorem agree_decodeString : Agree decodeString decodeString :=
  Agree.of_safe fun _ => safe_decodeString.mono (Nat.le_refl _) (Nat.zero_le _)
theorem agree_decodeUint29 : Agree decodeUint29 decodeUint29 :=
  Agree.of_safe fun _ => safe_decodeUint29.mono (Nat.le_refl _) (Nat.zero_le _)
theorem agree_pushObj (v : Val) : Agree (pushObj v) (pushObj v) := fun _ hs => ⟨rfl, hs⟩

theorem agree_assocLoop {d d' : GoM St Val} (h : Agree d d') (fuel : Nat) (key acc) :
    Agree (assocLoop d fuel key acc) (assocLoop d' fuel key acc) := by
  induction fuel generalizing key acc with
  | zero => exact Agree.diverge
  | succ n ih => exact Agree.ite (Agree.pure _) (Agree.bind h fun v => agree_decodeString.bind fun _ => ih _ _)

theorem agree_denseLoop {d d' : GoM St Val} (h : Agree d d') (n : Nat) (acc) :
    Agree (denseLoop d n acc) (denseLoop d' n acc) := by
  induction n generalizing acc with
  | zero => exact Agree.pure _
  | succ n ih => exact Agree.bind h fun v => ih _

theorem agree_propVals {d d' : GoM St Val} (h : Agree d d') (ks acc) : Agree (propVals d ks acc) (propVals d' ks acc) := by
  induction ks generalizing acc with
  | nil => exact Agree.pure _
  | cons k ks ih => exact Agree.bind h fun v => ih _

theorem agree_decodeArray {d d' : GoM St Val} (h : Agree d d') (n : Nat) : Agree (decodeArray d n) (decodeArray d' n) := by
  refine agree_decodeUint29.bind fun ⟨isRef, refVal⟩ => Agree.ite ?_ ?_
  · refine Agree.of_safe fun N => (safe_objRef _).bind0 fun v => ?_
    cases v <;> first | exact Safe.pure _ | exact Safe.fail _
  · exact agree_decodeString.bind fun key => (agree_pushObj _).bind fun _ =>
      (agree_assocLoop h _ _ _).bind fun _ => (agree_denseLoop h _ _).bind fun _ => Agree.pure _

theorem agree_decodeObject (H H' : Handlers) {d d' : GoM St Val} (h : Agree d d') (n : Nat) :
    Agree (decodeObject H d n) (decodeObject H' d' n) := by
  refine agree_decodeUint29.bind fun ⟨isRef, refVal⟩ => Agree.ite ?_ ?_
  · exact Agree.of_safe fun N => safe_objRef _
  · refine Agree.bindQ (fun t => t.externalizable = false) (fun s s' t hs h => decodeTrait_ext _ _ _ _ hs h)
      (Agree.of_safe fun N => safe_decodeTrait _) fun t ht => (agree_pushObj _).bind fun _ => ?_
    simp only [ht, Bool.false_eq_true, if_false]
    refine (agree_propVals h _ _).bind fun o => Agree.ite ?_ ((Agree.pure _).bind fun _ => Agree.pure _)
    exact agree_decodeString.bind fun _ => (agree_assocLoop h _ _ _).bind fun _ => Agree.pure _

/-- Whatever handlers are registered, decoding does the same. -/
theorem agree_dec (H H' : Handlers) (fuel : Nat) : Agree (dec H fuel) (dec H' fuel) := by
  induction fuel with
  | zero => exact Agree.diverge
  | succ n ih =>
    unfold dec
    refine (Agree.of_safe fun N => Safe.readByte.mono (Nat.le_refl _) (Nat.zero_le _)).bind fun m => ?_
    refine Agree.ite (Agree.pure _) ?_
    refine Agree.ite (Agree.pure _) ?_
    refine Agree.ite (Agree.pure _) ?_
    refine Agree.ite ((Agree.of_safe fun N => (safe_u29Loop 3 0).mono (Nat.le_refl _) (Nat.zero_le _)).bind fun _ => Agree.pure _) ?_
    refine Agree.ite (Agree.bind (Agree.of_safe fun N => ?_) fun _ => Agree.pure _) ?_
    · exact (Safe.readFull.mono (Nat.le_refl _) (Nat.zero_le _)).bind0 fun _ => Safe.pure _
    refine Agree.ite (agree_decodeString.bind fun _ => Agree.pure _) ?_
    refine Agree.ite (Agree.of_safe fun N => safe_decodeXmlDoc) ?_
    refine Agree.ite (Agree.of_safe fun N => safe_decodeDate) ?_
    refine Agree.ite (agree_decodeArray ih _) ?_
    refine Agree.ite (agree_decodeObject H H' ih _) ?_
    refine Agree.ite (Agree.of_safe fun N => safe_decodeXmlDoc) ?_
    refine Agree.ite (Agree.of_safe fun N => safe_decodeByteArray) (Agree.fail _)

theorem agree_decode (H H' : Handlers) (s : St) (hs : TraitsOk s) : decode H s = decode H' s :=
  (agree_dec H H' _ s hs).1

end Verif.Amf3

namespace Verif.Amf0
open Verif.Amf

/-- The first `k` entries of the reference table are unchanged. -/
def Same0 (k : Nat) (s s' : St) : Prop :=
  k ≤ s.refs0.length → k ≤ s'.refs0.length ∧ s'.refs0.take k = s.refs0.take k

theorem frame_same0 (k : Nat) : Amf3.Frame3 (Same0 k) where
  refl _ h := ⟨h, rfl⟩
  trans _ _ _ h1 h2 h := by
    obtain ⟨a, b⟩ := h1 h
    obtain ⟨c, d⟩ := h2 a
    exact ⟨c, d.trans b⟩
  data _ _ h := ⟨h, rfl⟩
  str _ _ h := ⟨h, rfl⟩
  obj _ _ h := ⟨h, rfl⟩
  tra _ _ h := ⟨h, rfl⟩

theorem keep_pushRef (k : Nat) (v : Ref0) : Keep (Same0 k) (pushRef v) := by
  intro s h
  simp [pushRef]
  exact ⟨by omega, List.take_append_of_le_length h⟩

theorem keep_decodeString {R : St → St → Prop} (G : Frame R) : Keep R decodeString :=
  ((Keep.readFull G _).bind G fun _ => Keep.pure G _).bind G fun _ => Keep.readBytes G _
theorem keep_decodeLongString {R : St → St → Prop} (G : Frame R) : Keep R decodeLongString :=
  ((Keep.readFull G _).bind G fun _ => Keep.pure G _).bind G fun _ => Keep.readBytes G _

theorem keep_objLoop {k id : Nat} (hk : k ≤ id) {d : GoM St Val} (hd : Keep (Same0 k) d) (fuel : Nat) (acc) :
    Keep (Same0 k) (objLoop d id fuel acc) := by
  have G := (frame_same0 k).toFrame
  induction fuel generalizing acc with
  | zero => exact Keep.diverge G
  | succ n ih =>
    unfold objLoop
    refine (keep_decodeString G).bind G fun key => Keep.ite ?_ ?_
    · exact (Keep.nextByteMustBe G _).bind G fun _ => Keep.pure G _
    · refine Keep.bind G hd fun v => Keep.bind G (Keep.modify _ ?_) fun _ => ih _
      intro s h
      refine ⟨by simpa using h, ?_⟩
      simp [List.take_set_of_le hk]

/-- The object loop, entered by `decodeObject`, whatever index `pushRef` returned. -/
theorem keep_decodeObject {k : Nat} {d : GoM St Val} (hd : Keep (Same0 k) d) (fuel : Nat) :
    Keep (Same0 k) (decodeObject d fuel) := by
  intro s h
  have h1 := keep_pushRef k (.object []) s h
  unfold decodeObject
  rw [GoM.bind_apply]
  exact (frame_same0 k).trans _ _ _ (fun _ => h1) (keep_objLoop h hd fuel [] _) h

theorem keep_arrLoop {k : Nat} {d : GoM St Val} (hd : Keep (Same0 k) d) (n : Nat) (acc) :
    Keep (Same0 k) (arrLoop d n acc) := by
  have G := (frame_same0 k).toFrame
  induction n generalizing acc with
  | zero => exact Keep.pure G _
  | succ n ih => exact Keep.bind G hd fun v => ih _

theorem keep_dec (k fuel : Nat) : Keep (Same0 k) (dec fuel) := by
  have F := frame_same0 k
  have G := F.toFrame
  induction fuel with
  | zero => exact Keep.diverge G
  | succ n ih =>
    rw [dec_succ]
    refine (Keep.readByte G).bind G fun m => ?_
    unfold branch
    have hu32 : Keep (Same0 k) readU32 := (Keep.readFull G _).bind G fun _ => Keep.pure G _
    have hs := keep_decodeString G
    have hl := keep_decodeLongString G
    have ho := keep_decodeObject ih n
    have hr : Keep (Same0 k) decodeReference := by
      refine ((Keep.readFull G _).bind G fun _ => Keep.pure G _).bind G fun r => (Keep.get G).bind G fun s => ?_
      refine Keep.ite (Keep.fail G _) ((Keep.lift G _).bind G fun e => ?_)
      cases e <;> exact Keep.pure G _
    have he : Keep (Same0 k) (decodeEcmaArray (dec n) n) := hu32.bind G fun _ => ho
    have ha : Keep (Same0 k) (decodeStrictArray (dec n)) :=
      hu32.bind G fun _ => (keep_pushRef k _).bind G fun _ => keep_arrLoop ih _ _
    have hd : Keep (Same0 k) decodeDate :=
      (Keep.readFull G _).bind G fun _ => (Keep.readBytes G _).bind G fun _ => Keep.pure G _
    have ht : Keep (Same0 k) (decodeTypedObject (dec n) n) :=
      (keep_pushRef k _).bind G fun _ => hs.bind G fun _ => ho.bind G fun _ => Keep.pure G _
    refine Keep.ite ((Keep.readFull G _).bind G fun _ => Keep.pure G _) ?_
    refine Keep.ite ((Keep.readByte G).bind G fun _ => Keep.pure G _) ?_
    refine Keep.ite (hs.bind G fun _ => Keep.pure G _) ?_
    refine Keep.ite (ho.bind G fun _ => Keep.pure G _) ?_
    refine Keep.ite (Keep.fail G _) ?_
    refine Keep.ite (Keep.pure G _) ?_
    refine Keep.ite hr ?_
    refine Keep.ite (he.bind G fun _ => Keep.pure G _) ?_
    refine Keep.ite (ha.bind G fun _ => Keep.pure G _) ?_
    refine Keep.ite (hd.bind G fun _ => Keep.pure G _) ?_
    refine Keep.ite (hl.bind G fun _ => Keep.pure G _) ?_
    refine Keep.ite (Keep.fail G _) ?_
    refine Keep.ite (hl.bind G fun _ => Keep.pure G _) ?_
    refine Keep.ite (ht.bind G fun _ => Keep.pure G _) ?_
    refine Keep.ite (Amf3.keep_decode F _ (by simp [noHandlers])) (Keep.fail G _)

theorem keep_decode (k : Nat) : Keep (Same0 k) decode := fun s => keep_dec k _ s

/-- When the object loop succeeds, the cached map holds exactly the entries it returns. -/
theorem objLoop_entry {d : GoM St Val} {id : Nat} (hd : Keep (Same0 (id + 1)) d) (fuel : Nat) (acc kvs) (s s' : St)
    (hs : s.refs0[id]? = some (.object acc)) (h : objLoop d id fuel acc s = (.ok kvs, s')) :
    s'.refs0[id]? = some (.object kvs) := by
  have F := frame_same0 (id + 1)
  have G := F.toFrame
  have stay : ∀ t t' : St, Same0 (id + 1) t t' → ∀ x, t.refs0[id]? = some x → t'.refs0[id]? = some x := by
    intro t t' hr x hx
    have hl : id + 1 ≤ t.refs0.length := by
      rcases List.getElem?_eq_some_iff.mp hx with ⟨h, _⟩; omega
    have := congrArg (fun l => l[id]?) (hr hl).2
    simpa [List.getElem?_take, hx] using this
  induction fuel generalizing acc s with
  | zero => simp [objLoop] at h
  | succ n ih =>
    unfold objLoop at h
    rw [GoM.bind_apply] at h
    rcases h1 : decodeString s with ⟨r, s1⟩
    have k1 := keep_decodeString G s
    rw [h1] at h k1
    have e1 := stay _ _ k1 _ hs
    cases r with
    | ok key =>
      simp only at h
      split at h
      · rw [GoM.bind_apply] at h
        rcases h2 : nextByteMustBe 9 s1 with ⟨r, s2⟩
        have k2 := Keep.nextByteMustBe G 9 s1
        rw [h2] at h k2
        cases r with
        | ok _ =>
          simp at h
          rw [← h.1, ← h.2]
          exact stay _ _ k2 _ e1
        | _ => simp at h
      · rw [GoM.bind_apply] at h
        rcases h2 : d s1 with ⟨r, s2⟩
        have k2 := hd s1
        rw [h2] at h k2
        cases r with
        | ok v =>
          simp only [GoM.bind_apply, setRef, GoM.modify_apply] at h
          refine ih _ _ ?_ h
          have e2 := stay _ _ k2 _ e1
          have hl : id < s2.refs0.length := (List.getElem?_eq_some_iff.mp e2).1
          simp [List.getElem?_set, hl]
        | _ => simp at h
    | _ => simp at h

/-- A decoded object sits in the reference table at the index it was given. -/
theorem decodeObject_entry (n fuel : Nat) (kvs) (s s' : St) (h : decodeObject (dec n) fuel s = (.ok kvs, s')) :
    s'.refs0[s.refs0.length]? = some (.object kvs) := by
  unfold decodeObject at h
  rw [GoM.bind_apply] at h
  simp only [pushRef] at h
  exact objLoop_entry (keep_dec _ n) fuel [] kvs _ s' (by simp) h

end Verif.Amf0
