import Verif.Lemmas.Amf
/-! # Lemmas about the AMF3 decoder: termination, absence of panics, fuel -/
namespace Verif.Amf3
open Verif.Amf

theorem and2_ne_one (x : UInt32) : (x &&& 2 == 1) = false := by
  have : x &&& 2 ≠ 1 := by
    intro h
    have := congrArg (fun y => y.toNat.testBit 0) h
    simp [Nat.testBit_and] at this
  simpa using this

theorem and4_ne_one (x : UInt32) : (x &&& 4 == 1) = false := by
  have : x &&& 4 ≠ 1 := by
    intro h
    have := congrArg (fun y => y.toNat.testBit 0) h
    simp [Nat.testBit_and] at this
  simpa using this

section safe
variable {pan : Bool} {N : Nat}

theorem safe_u29Loop (i : Nat) (ret : UInt32) : Safe pan N 1 (u29Loop i ret) := by
  induction i generalizing ret N with
  | zero => exact Safe.readByte.bindl fun _ _ => Safe.pure _
  | succ i ih =>
    exact Safe.readByte.bindl fun _ b => Safe.ite (fun _ => Safe.pure _) (fun _ => (ih _).mono (Nat.le_refl _) (by omega))

theorem safe_decodeUint29 : Safe pan N 1 decodeUint29 :=
  (safe_u29Loop 3 0).bindl fun _ _ => Safe.pure _

theorem safe_decodeString : Safe pan N 1 decodeString := by
  refine safe_decodeUint29.bindl fun _ ⟨isRef, refVal⟩ => ?_
  refine Safe.ite (fun _ => ?_) (fun _ => Safe.ite (fun _ => Safe.pure _) (fun _ => ?_))
  · exact Safe.get.bind0 fun s => Safe.ite (fun _ => Safe.fail _) (fun h => Safe.lift_index h)
  · refine ((Safe.readBytes _).mono (Nat.le_refl _) (Nat.zero_le _)).bind0 fun buf => ?_
    exact (Safe.modify _ (fun _ => rfl) (fun _ h => h)).bind0 fun _ => Safe.pure _

theorem safe_objRef (i : Nat) : Safe pan N 0 (objRef i) :=
  Safe.get.bind0 fun _ => Safe.ite (fun _ => Safe.fail _) (fun h => Safe.lift_index h)

theorem safe_pushObj (v : Val) : Safe pan N 0 (pushObj v) :=
  Safe.modify _ (fun _ => rfl) (fun _ h => h)

theorem safe_readF64 : Safe pan N 8 readF64 := Safe.readFull.bindl fun _ _ => Safe.pure _

theorem safe_mapErr {α} {e : Err} {m : GoM St α} {c} (h : Safe pan N c m) : Safe pan N c (mapErr e m) := by
  intro s hs ht
  obtain ⟨h1, h2, h3, h4, h5⟩ := h s hs ht
  unfold mapErr
  rcases hm : m s with ⟨r, s'⟩
  rw [hm] at h1 h2 h3 h4 h5
  cases r with
  | ok a => exact ⟨h1, h2, h3, h4, h5⟩
  | err e => exact ⟨by simp, by simp, h3, by simp, h5⟩
  | panic => exact ⟨h1, h2, h3, h4, h5⟩
  | diverge => exact ⟨h1, h2, h3, h4, h5⟩

theorem safe_decodeDate : Safe pan N 0 decodeDate := by
  refine (safe_decodeUint29.mono (Nat.le_refl _) (Nat.zero_le _)).bind0 fun ⟨isRef, refVal⟩ => ?_
  refine Safe.ite (fun _ => ?_) (fun _ => ?_)
  · refine (safe_objRef _).bind0 fun v => ?_
    cases v <;> first | exact Safe.pure _ | exact Safe.fail _
  · refine ((safe_mapErr safe_readF64).mono (Nat.le_refl _) (Nat.zero_le _)).bind0 fun f => ?_
    exact (safe_pushObj _).bind0 fun _ => Safe.pure _

theorem safe_assocLoop {d : GoM St Val} {fuel : Nat} (hN : N < fuel) (hd : Safe pan N 1 d) (key acc) :
    Safe pan N 0 (assocLoop d fuel key acc) := by
  induction fuel generalizing N key acc with
  | zero => omega
  | succ n ih =>
    unfold assocLoop
    refine Safe.ite (fun _ => Safe.pure _) (fun _ => ?_)
    refine (Safe.bindl hd fun h v => ?_).mono (Nat.le_refl _) (Nat.zero_le _)
    refine (safe_decodeString.mono (Nat.le_refl _) (Nat.zero_le _)).bind0 fun key' => ?_
    exact ih (by omega) (hd.mono (by omega) (Nat.le_refl _)) _ _

theorem safe_denseLoop {d : GoM St Val} (hd : Safe pan N 1 d) (n : Nat) (acc) :
    Safe pan N 0 (denseLoop d n acc) := by
  induction n generalizing acc with
  | zero => exact Safe.pure _
  | succ n ih => exact (hd.mono (Nat.le_refl _) (Nat.zero_le _)).bind0 fun v => ih _

theorem safe_decodeArray {d : GoM St Val} {fuel : Nat} (hN : N < fuel) (hd : Safe pan N 1 d) :
    Safe pan N 0 (decodeArray d fuel) := by
  refine (safe_decodeUint29.mono (Nat.le_refl _) (Nat.zero_le _)).bind0 fun ⟨isRef, refVal⟩ => ?_
  refine Safe.ite (fun _ => ?_) (fun _ => ?_)
  · refine (safe_objRef _).bind0 fun v => ?_
    cases v <;> first | exact Safe.pure _ | exact Safe.fail _
  · refine (safe_decodeString.mono (Nat.le_refl _) (Nat.zero_le _)).bind0 fun key => ?_
    refine (safe_pushObj _).bind0 fun _ => ?_
    refine (safe_assocLoop hN hd _ _).bind0 fun _ => ?_
    exact (safe_denseLoop hd _ _).bind0 fun _ => Safe.pure _

theorem safe_propNames (n : Nat) (acc) : Safe pan N 0 (propNames n acc) := by
  induction n generalizing acc with
  | zero => exact Safe.pure _
  | succ n ih => exact (safe_decodeString.mono (Nat.le_refl _) (Nat.zero_le _)).bind0 fun v => ih _

theorem safe_propVals {d : GoM St Val} (hd : Safe pan N 1 d) (ks) (acc) : Safe pan N 0 (propVals d ks acc) := by
  induction ks generalizing acc with
  | nil => exact Safe.pure _
  | cons k ks ih => exact (hd.mono (Nat.le_refl _) (Nat.zero_le _)).bind0 fun v => ih _

theorem safe_decodeTrait (refVal : UInt32) : Safe pan N 0 (decodeTrait refVal) := by
  refine Safe.ite (fun _ => ?_) (fun _ => ?_)
  · exact Safe.get.bind0 fun s => Safe.ite (fun _ => Safe.fail _) (fun h => Safe.lift_index h)
  · refine (safe_decodeString.mono (Nat.le_refl _) (Nat.zero_le _)).bind0 fun type => ?_
    refine (safe_propNames _ _).bind0 fun props => ?_
    refine Safe.bind0 (Safe.modify _ (fun _ => rfl) ?_) fun _ => Safe.pure _
    intro s hs t ht
    rcases List.mem_append.mp ht with h | h
    · exact hs t h
    · simp at h
      simpa [h] using (by simpa using and2_ne_one refVal)

/-- Traits obtained by decoding are never externalizable. -/
theorem decodeTrait_ext (refVal : UInt32) (s s' : St) (t : Trait) (hs : TraitsOk s)
    (h : decodeTrait refVal s = (.ok t, s')) : t.externalizable = false := by
  unfold decodeTrait at h
  split at h
  · simp only [GoM.bind_apply, GoM.get_apply] at h
    split at h
    · simp at h
    · rename_i hl
      have hl' : (refVal >>> 1).toNat < s.traits.length := by omega
      simp only [GoM.lift_apply, goIndex, Prod.mk.injEq] at h
      have h1 := h.1
      simp only [Int.toNat_natCast, List.getElem?_eq_getElem hl'] at h1
      rw [if_neg (by omega)] at h1
      injection h1 with h1
      rw [← h1]
      exact hs _ (List.getElem_mem hl')
  · simp only [GoM.bind_apply] at h
    rcases h1 : decodeString s with ⟨r, s1⟩
    rw [h1] at h
    cases r with
    | ok type =>
      simp only at h
      rcases h2 : propNames (refVal >>> 3).toNat [] s1 with ⟨r, s2⟩
      rw [h2] at h
      cases r with
      | ok props =>
        simp at h
        rw [← h.1]
        simpa using and2_ne_one refVal
      | _ => simp at h
    | _ => simp at h

theorem safe_decodeObject (H : Handlers) {d : GoM St Val} {fuel : Nat} (hN : N < fuel) (hd : Safe pan N 1 d) :
    Safe pan N 0 (decodeObject H d fuel) := by
  refine (safe_decodeUint29.mono (Nat.le_refl _) (Nat.zero_le _)).bind0 fun ⟨isRef, refVal⟩ => ?_
  refine Safe.ite (fun _ => safe_objRef _) (fun _ => ?_)
  refine (safe_decodeTrait refVal).bind0Q (fun t => t.externalizable = false) (fun s s' t hs h => decodeTrait_ext _ _ _ _ hs h)
    fun t ht => ?_
  refine (safe_pushObj _).bind0 fun _ => ?_
  refine Safe.ite (fun h => by simp [ht] at h) (fun _ => ?_)
  refine (safe_propVals hd _ _).bind0 fun o => ?_
  refine Safe.ite (fun _ => ?_) (fun _ => (Safe.pure _).bind0 fun _ => Safe.pure _)
  refine (safe_decodeString.mono (Nat.le_refl _) (Nat.zero_le _)).bind0 fun key => ?_
  exact (safe_assocLoop hN hd _ _).bind0 fun _ => Safe.pure _

theorem safe_readPadded (n : Nat) : Safe pan N 0 (readPadded n) :=
  (Safe.rawRead n).bind0 fun _ => Safe.pure _

theorem safe_decodeXmlDoc : Safe pan N 0 decodeXmlDoc := by
  refine (safe_decodeUint29.mono (Nat.le_refl _) (Nat.zero_le _)).bind0 fun ⟨isRef, refVal⟩ => ?_
  refine Safe.ite (fun _ => ?_) (fun _ => Safe.ite (fun _ => Safe.pure _) (fun _ => ?_))
  · refine (safe_objRef _).bind0 fun v => ?_
    cases v <;> first | exact Safe.pure _ | exact Safe.fail _
  · exact (safe_readPadded _).bind0 fun b => (safe_pushObj _).bind0 fun _ => Safe.pure _

theorem safe_decodeByteArray : Safe pan N 0 decodeByteArray := by
  refine (safe_decodeUint29.mono (Nat.le_refl _) (Nat.zero_le _)).bind0 fun ⟨isRef, refVal⟩ => ?_
  refine Safe.ite (fun _ => ?_) (fun _ => Safe.ite (fun _ => Safe.pure _) (fun _ => ?_))
  · refine (safe_objRef _).bind0 fun v => ?_
    cases v <;> first | exact Safe.pure _ | exact Safe.fail _
  · exact (safe_readPadded _).bind0 fun b => (safe_pushObj _).bind0 fun _ => Safe.pure _

theorem safe_dec (H : Handlers) (fuel : Nat) (hN : N < fuel) : Safe pan N 1 (dec H fuel) := by
  induction fuel generalizing N with
  | zero => omega
  | succ n ih =>
    unfold dec
    refine Safe.readByte.bindl fun h1 marker => ?_
    have hn : N - 1 < n := by omega
    repeat' refine Safe.ite (fun _ => ?_) (fun _ => ?_)
    all_goals first
      | exact Safe.pure _
      | exact Safe.fail _
      | exact ((safe_u29Loop 3 0).mono (Nat.le_refl _) (Nat.zero_le _)).bind0 fun _ => Safe.pure _
      | exact (safe_readF64.mono (Nat.le_refl _) (Nat.zero_le _)).bind0 fun _ => Safe.pure _
      | exact (safe_decodeString.mono (Nat.le_refl _) (Nat.zero_le _)).bind0 fun _ => Safe.pure _
      | exact safe_decodeXmlDoc
      | exact safe_decodeDate
      | exact safe_decodeArray hn (ih hn)
      | exact safe_decodeObject H hn (ih hn)
      | exact safe_decodeByteArray

theorem safe_decode (H : Handlers) : Safe pan N 1 (decode H) := by
  intro s hs ht
  exact safe_dec (N := s.data.length) H (s.data.length + 1) (Nat.lt_succ_self _) s (Nat.le_refl _) ht
end safe

/-! ## More fuel does not change the outcome -/

theorem assocLoop_le {d d' : GoM St Val} (h : GoM.Le d d') {n n' : Nat} (hn : n ≤ n') (key acc) :
    GoM.Le (assocLoop d n key acc) (assocLoop d' n' key acc) := by
  induction n generalizing key acc n' with
  | zero => exact GoM.Le.diverge _
  | succ n ih =>
    obtain ⟨m, rfl⟩ : ∃ m, n' = m + 1 := ⟨n' - 1, by omega⟩
    exact GoM.Le.ite (GoM.Le.rfl' _) (GoM.Le.bind h fun v => GoM.Le.bind_right _ fun k => ih (by omega) _ _)

theorem denseLoop_le {d d' : GoM St Val} (h : GoM.Le d d') (n : Nat) (acc) :
    GoM.Le (denseLoop d n acc) (denseLoop d' n acc) := by
  induction n generalizing acc with
  | zero => exact GoM.Le.rfl' _
  | succ n ih => exact GoM.Le.bind h fun v => ih _

theorem propVals_le {d d' : GoM St Val} (h : GoM.Le d d') (ks) (acc) :
    GoM.Le (propVals d ks acc) (propVals d' ks acc) := by
  induction ks generalizing acc with
  | nil => exact GoM.Le.rfl' _
  | cons k ks ih => exact GoM.Le.bind h fun v => ih _

theorem readFlags_le {n n' : Nat} (hn : n ≤ n') (acc) : GoM.Le (readFlags n acc) (readFlags n' acc) := by
  induction n generalizing acc n' with
  | zero => exact GoM.Le.diverge _
  | succ n ih =>
    obtain ⟨m, rfl⟩ : ∃ m, n' = m + 1 := ⟨n' - 1, by omega⟩
    exact GoM.Le.bind_right _ fun f => GoM.Le.ite (GoM.Le.rfl' _) (ih (by omega) _)

theorem namedFields_le {d d' : GoM St Val} (h : GoM.Le d d') (flags p names obj) :
    GoM.Le (namedFields d flags p names obj) (namedFields d' flags p names obj) := by
  induction names generalizing p obj with
  | nil => exact GoM.Le.rfl' _
  | cons k ks ih => exact GoM.Le.ite (GoM.Le.bind h fun v => ih _ _) (ih _ _)

theorem extraFields_le {d d' : GoM St Val} (h : GoM.Le d d') (flags i n obj) :
    GoM.Le (extraFields d flags i n obj) (extraFields d' flags i n obj) := by
  induction n generalizing obj with
  | zero => exact GoM.Le.rfl' _
  | succ n ih => exact GoM.Le.ite (GoM.Le.bind h fun v => ih _) (ih _)

theorem flagSets_le {d d' : GoM St Val} (h : GoM.Le d d') (fs i flags obj) :
    GoM.Le (flagSets d fs i flags obj) (flagSets d' fs i flags obj) := by
  induction flags generalizing i obj with
  | nil => exact GoM.Le.rfl' _
  | cons k ks ih =>
    exact GoM.Le.bind (namedFields_le h _ _ _ _) fun _ =>
      GoM.Le.ite (GoM.Le.bind (extraFields_le h _ _ _ _) fun _ => ih _ _) (GoM.Le.bind_right _ fun _ => ih _ _)

theorem decodeExternal_le {d d' : GoM St Val} (h : GoM.Le d d') {n n'} (hn : n ≤ n') (obj fs) :
    GoM.Le (decodeExternal d n obj fs) (decodeExternal d' n' obj fs) :=
  GoM.Le.bind (readFlags_le hn _) fun _ => flagSets_le h _ _ _ _

theorem decodeAsync_le {d d' : GoM St Val} (h : GoM.Le d d') {n n'} (hn : n ≤ n') :
    GoM.Le (decodeAsyncMessage d n) (decodeAsyncMessage d' n') :=
  GoM.Le.bind (decodeExternal_le h hn _ _) fun _ => decodeExternal_le h hn _ _

theorem decodeExt_le (H : Handlers) {d d' : GoM St Val} (h : GoM.Le d d') {n n'} (hn : n ≤ n') (t) :
    GoM.Le (decodeExt H d n t) (decodeExt H d' n' t) := by
  refine GoM.Le.ite ?_ (GoM.Le.ite ?_ (GoM.Le.ite ?_ (GoM.Le.rfl' _)))
  · exact GoM.Le.bind (decodeAsync_le h hn) fun _ => GoM.Le.rfl' _
  · exact GoM.Le.bind (GoM.Le.bind (decodeAsync_le h hn) fun _ => decodeExternal_le h hn _ _) fun _ => GoM.Le.rfl' _
  · exact GoM.Le.bind h fun _ => GoM.Le.rfl' _

theorem decodeArray_le {d d' : GoM St Val} (h : GoM.Le d d') {n n'} (hn : n ≤ n') :
    GoM.Le (decodeArray d n) (decodeArray d' n') := by
  refine GoM.Le.bind_right _ fun ⟨isRef, refVal⟩ => ?_
  refine GoM.Le.ite (GoM.Le.rfl' _) (GoM.Le.bind_right _ fun key => GoM.Le.bind_right _ fun _ => ?_)
  exact GoM.Le.bind (assocLoop_le h hn _ _) fun _ => GoM.Le.bind (denseLoop_le h _ _) fun _ => GoM.Le.rfl' _

theorem decodeObject_le (H : Handlers) {d d' : GoM St Val} (h : GoM.Le d d') {n n'} (hn : n ≤ n') :
    GoM.Le (decodeObject H d n) (decodeObject H d' n') := by
  refine GoM.Le.bind_right _ fun ⟨isRef, refVal⟩ => ?_
  refine GoM.Le.ite (GoM.Le.rfl' _) (GoM.Le.bind_right _ fun t => GoM.Le.bind_right _ fun _ => ?_)
  refine GoM.Le.ite (decodeExt_le H h hn _) ?_
  refine GoM.Le.bind (propVals_le h _ _) fun _ => GoM.Le.ite ?_ (GoM.Le.rfl' _)
  exact GoM.Le.bind_right _ fun key => GoM.Le.bind (assocLoop_le h hn _ _) fun _ => GoM.Le.rfl' _

theorem dec_le (H : Handlers) {n n' : Nat} (hn : n ≤ n') : GoM.Le (dec H n) (dec H n') := by
  induction n generalizing n' with
  | zero => exact GoM.Le.diverge _
  | succ n ih =>
    obtain ⟨m, rfl⟩ : ∃ m, n' = m + 1 := ⟨n' - 1, by omega⟩
    have hm : n ≤ m := by omega
    unfold dec
    refine GoM.Le.bind_right _ fun marker => ?_
    repeat' refine GoM.Le.ite ?_ ?_
    all_goals first
      | exact GoM.Le.rfl' _
      | exact decodeArray_le (ih hm) hm
      | exact decodeObject_le H (ih hm) hm

end Verif.Amf3
