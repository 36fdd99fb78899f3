import Verif.Lemmas.Amf3
import Verif.Spec.Amf3
import Verif.Lemmas.Amf0
import Verif.Lemmas.Float64
/-! # Lemmas about the AMF3 codec: U29, sorting, exact parsing -/
namespace Verif.Amf3
open Verif.Amf Verif.Spec.Amf3

/-! ## U29 -/

theorem and80 (b : UInt8) : (b &&& 0x80 = 0) ↔ b.toNat < 128 := by
  have h : ∀ n : Fin 256, (UInt8.ofNat n.val &&& 0x80 = 0) ↔ n.val < 128 := by decide +kernel
  have := h ⟨b.toNat, b.toNat_lt⟩
  simpa using this

theorem and7f (b : UInt8) : (b &&& 0x7F).toNat = b.toNat % 128 := by
  have : (b &&& 0x7F).toNat = b.toNat &&& (2 ^ 7 - 1) := by simp [UInt8.toNat_and]
  rw [this, Nat.and_two_pow_sub_one_eq_mod]

theorem or80 (x : Nat) (h : x < 128) : x ||| 128 = 128 + x := by
  have h' : ∀ n : Fin 128, n.val ||| 128 = 128 + n.val := by decide +kernel
  exact h' ⟨x, h⟩

theorem and127 (x : Nat) : x &&& 127 = x % 128 := Nat.and_two_pow_sub_one_eq_mod x 7

theorem toUInt8_eq (x : UInt32) (n : Nat) (h : x.toNat % 256 = n % 256) : x.toUInt8 = UInt8.ofNat n := by
  apply UInt8.toNat_inj.mp
  rw [UInt32.toNat_toUInt8, UInt8.toNat_ofNat']
  exact h

/-- `writeUint29` produces the U29 of the specification below 2^29 and nothing above. -/
theorem u29Bytes_eq (v : UInt32) : u29Bytes v = if v.toNat < 2 ^ 29 then some (u29 v.toNat) else none := by
  have hle : ∀ k : UInt32, (v ≤ k) = (v.toNat ≤ k.toNat) := fun k => by simp [UInt32.le_iff_toNat_le]
  unfold u29Bytes u29
  simp only [hle]
  have hb := v.toNat_lt
  have h7 : (0x7F : UInt32).toNat = 127 := rfl
  have h14 : (0x3FFF : UInt32).toNat = 16383 := rfl
  have h21 : (0x1FFFFF : UInt32).toNat = 2097151 := rfl
  have h29 : (0x1FFFFFFF : UInt32).toNat = 536870911 := rfl
  simp only [h7, h14, h21, h29]
  by_cases c1 : v.toNat ≤ 127
  · rw [if_pos c1, if_pos (by omega), if_pos (by omega)]
    rw [toUInt8_eq v v.toNat rfl]
  rw [if_neg c1]
  by_cases c2 : v.toNat ≤ 16383
  · rw [if_pos c2, if_pos (by omega), if_neg (by omega), if_pos (by omega)]
    congr 2
    · apply toUInt8_eq
      simp [UInt32.toNat_or, UInt32.toNat_shiftRight, Nat.shiftRight_eq_div_pow]
      rw [or80 _ (by omega)]
    · congr 1
      apply toUInt8_eq
      simp [UInt32.toNat_and, and127]
  rw [if_neg c2]
  by_cases c3 : v.toNat ≤ 2097151
  · rw [if_pos c3, if_pos (by omega), if_neg (by omega), if_neg (by omega), if_pos (by omega)]
    congr 2
    · apply toUInt8_eq
      simp [UInt32.toNat_or, UInt32.toNat_shiftRight, Nat.shiftRight_eq_div_pow]
      rw [or80 _ (by omega)]
    · congr 1
      · apply toUInt8_eq
        simp [UInt32.toNat_or, UInt32.toNat_and, UInt32.toNat_shiftRight, Nat.shiftRight_eq_div_pow, and127]
        rw [or80 _ (by omega)]
      · congr 1
        apply toUInt8_eq
        simp [UInt32.toNat_and, and127]
  rw [if_neg c3]
  by_cases c4 : v.toNat ≤ 536870911
  · rw [if_pos c4, if_pos (by omega), if_neg (by omega), if_neg (by omega), if_neg (by omega)]
    congr 2
    · apply toUInt8_eq
      simp [UInt32.toNat_or, UInt32.toNat_shiftRight, Nat.shiftRight_eq_div_pow]
      rw [or80 _ (by omega)]
    · congr 1
      · apply toUInt8_eq
        simp [UInt32.toNat_or, UInt32.toNat_and, UInt32.toNat_shiftRight, Nat.shiftRight_eq_div_pow, and127]
        rw [or80 _ (by omega)]
      · congr 1
        · apply toUInt8_eq
          simp [UInt32.toNat_or, UInt32.toNat_and, UInt32.toNat_shiftRight, Nat.shiftRight_eq_div_pow, and127]
          rw [or80 _ (by omega)]
        · congr 1
          apply toUInt8_eq
          simp
  rw [if_neg c4, if_neg (by omega)]

theorem u29_length (n : Nat) : (u29 n).length = if n < 128 then 1 else if n < 16384 then 2 else if n < 2097152 then 3 else 4 := by
  unfold u29
  split
  · rfl
  split
  · rfl
  split <;> rfl

theorem u29_ne (n : Nat) : u29 n ≠ [] := by
  intro h
  have := u29_length n
  rw [h] at this
  simp at this
  repeat' split at this
  all_goals omega

theorem emits_writeUint29 (v : UInt32) (h : v.toNat < 2 ^ 29) :
    Emits (writeUint29 v) [u29 v.toNat] (.ok (u29 v.toNat).length) := by
  unfold writeUint29
  rw [u29Bytes_eq, if_pos h]
  exact (Emits.write _).map

theorem writeUint29_large (v : UInt32) (h : ¬ v.toNat < 2 ^ 29) : writeUint29 v = GoM.fail .other := by
  unfold writeUint29
  rw [u29Bytes_eq, if_neg h]

theorem shl1 (n : Nat) (h : n < 2 ^ 28) : ((UInt32.ofNat n <<< 1) ||| 1).toNat = 2 * n + 1 := by
  simp [UInt32.toNat_or, UInt32.toNat_shiftLeft, UInt32.toNat_ofNat', Nat.shiftLeft_eq]
  rw [Nat.mod_eq_of_lt (show n * 2 < 4294967296 by omega)]
  have := Nat.two_pow_add_eq_or_of_lt (i := 1) (b := 1) (by omega) n
  rw [Nat.pow_one, Nat.mul_comm] at this
  rw [← this]
  omega

theorem emits_encodeUint29 (n : Nat) (h : n < 2 ^ 28) :
    Emits (encodeUint29 (UInt32.ofNat n)) [u29 (2 * n + 1)] (.ok (u29 (2 * n + 1)).length) := by
  have := emits_writeUint29 ((UInt32.ofNat n <<< 1) ||| 1) (by rw [shl1 n h]; omega)
  rwa [shl1 n h] at this

section codec
variable {rj : Bool}

theorem u29Loop_succ (i : Nat) (ret : UInt32) : u29Loop (i + 1) ret = readByte >>= fun b =>
    if b &&& 0x80 = 0 then pure ((ret <<< 7) + (b &&& 0x7F).toUInt32)
    else u29Loop i ((ret <<< 7) + (b &&& 0x7F).toUInt32) := rfl

theorem codec_cont {i : Nat} {ret x : UInt32} {b : UInt8} {c : Bytes} (hb : 128 ≤ b.toNat)
    (h : Codec rj false (u29Loop i ((ret <<< 7) + (b &&& 0x7F).toUInt32)) c x) :
    Codec rj false (u29Loop (i + 1) ret) (b :: c) x := by
  rw [u29Loop_succ]
  refine Codec.bind_f (a := [b]) (Codec.readByte b) ?_
  have : ¬ (b &&& 0x80 = 0) := by rw [and80]; omega
  simpa [this] using h

theorem codec_last {i : Nat} {ret x : UInt32} {b : UInt8} (hb : b.toNat < 128)
    (h : (ret <<< 7) + (b &&& 0x7F).toUInt32 = x) : Codec rj false (u29Loop (i + 1) ret) [b] x := by
  rw [u29Loop_succ]
  refine Codec.bind_f (a := [b]) (c := []) (Codec.readByte b) ?_
  have : b &&& 0x80 = 0 := (and80 b).mpr hb
  simp only [this, if_true, h]
  exact Codec.pure x

theorem step7 (ret : UInt32) (b : UInt8) (m : Nat) (hm : ret.toNat = m) (hs : m < 2 ^ 25) :
    ((ret <<< 7) + (b &&& 0x7F).toUInt32).toNat = m * 128 + b.toNat % 128 := by
  simp only [UInt32.toNat_add, UInt32.toNat_shiftLeft, UInt8.toNat_toUInt32, and7f, hm]
  simp [Nat.shiftLeft_eq]
  omega

theorem codec_readUint29 (n : Nat) (h : n < 2 ^ 29) : Codec rj false readUint29 (u29 n) (UInt32.ofNat n) := by
  unfold readUint29 u29
  have hof : ∀ x : UInt32, x.toNat = n → x = UInt32.ofNat n := fun x hx => by
    apply UInt32.toNat_inj.mp
    rw [UInt32.toNat_ofNat', hx, Nat.mod_eq_of_lt]
    omega
  have hb : ∀ k, k < 256 → (UInt8.ofNat k).toNat = k := fun k hk => by
    rw [UInt8.toNat_ofNat', Nat.mod_eq_of_lt hk]
  split
  · refine codec_last (by rw [hb _ (by omega)]; omega) (hof _ ?_)
    rw [step7 0 _ 0 rfl (by omega), hb _ (by omega)]
    omega
  split
  · refine codec_cont (by rw [hb _ (by omega)]; omega) (codec_last (by rw [hb _ (by omega)]; omega) (hof _ ?_))
    rw [step7 _ _ (n / 128) ?_ (by omega), hb _ (by omega)]
    · omega
    · rw [step7 0 _ 0 rfl (by omega), hb _ (by omega)]; omega
  split
  · refine codec_cont (by rw [hb _ (by omega)]; omega) (codec_cont (by rw [hb _ (by omega)]; omega)
      (codec_last (by rw [hb _ (by omega)]; omega) (hof _ ?_)))
    rw [step7 _ _ (n / 128) ?_ (by omega), hb _ (by omega)]
    · omega
    · rw [step7 _ _ (n / 16384) ?_ (by omega), hb _ (by omega)]
      · omega
      · rw [step7 0 _ 0 rfl (by omega), hb _ (by omega)]; omega
  · refine codec_cont (by rw [hb _ (by omega)]; omega) (codec_cont (by rw [hb _ (by omega)]; omega)
      (codec_cont (by rw [hb _ (by omega)]; omega) ?_))
    refine Codec.congr (Codec.map (Codec.readByte (UInt8.ofNat (n % 256))) _) rfl rfl (hof _ ?_)
    rw [UInt32.toNat_add, UInt32.toNat_shiftLeft, UInt8.toNat_toUInt32, hb _ (by omega)]
    rw [step7 _ _ (n / 32768) ?_ (by omega), hb _ (by omega)]
    · simp [Nat.shiftLeft_eq]; omega
    · rw [step7 _ _ (n / 4194304) ?_ (by omega), hb _ (by omega)]
      · omega
      · rw [step7 0 _ 0 rfl (by omega), hb _ (by omega)]; omega

theorem codec_decodeUint29 (n : Nat) (h : n < 2 ^ 28) :
    Codec rj false decodeUint29 (u29 (2 * n + 1)) (false, UInt32.ofNat n) := by
  refine Codec.congr (Codec.map (codec_readUint29 (2 * n + 1) (by omega)) _) rfl rfl ?_
  have h1 : (UInt32.ofNat (2 * n + 1)).toNat = 2 * n + 1 := by
    rw [UInt32.toNat_ofNat', Nat.mod_eq_of_lt]; omega
  have h2 : UInt32.ofNat (2 * n + 1) &&& 1 ≠ 0 := by
    intro h
    have := congrArg UInt32.toNat h
    rw [UInt32.toNat_and, h1] at this
    simp at this
  have h3 : UInt32.ofNat (2 * n + 1) >>> 1 = UInt32.ofNat n := by
    apply UInt32.toNat_inj.mp
    rw [UInt32.toNat_shiftRight, h1, UInt32.toNat_ofNat', Nat.mod_eq_of_lt (show n < 2 ^ 32 by omega)]
    simp [Nat.shiftRight_eq_div_pow]
    omega
  generalize UInt32.ofNat (2 * n + 1) = u at *
  simp [h2, h3]

theorem codec_string (s : Bytes) (h : s.length < 2 ^ 28) : Codec rj false decodeString (utf8 s) s := by
  unfold utf8
  refine Codec.bind_f (codec_decodeUint29 _ h) ?_
  by_cases hs : s = []
  · subst hs
    simpa using Codec.pure (r := rj) ([] : Bytes)
  · have hl : (UInt32.ofNat s.length).toNat = s.length := by
      rw [UInt32.toNat_ofNat', Nat.mod_eq_of_lt]; omega
    have h0 : UInt32.ofNat s.length ≠ 0 := by
      intro h
      have := congrArg UInt32.toNat h
      rw [hl] at this
      exact hs (List.length_eq_zero_iff.mp this)
    simp only [h0, if_false, hl]
    have h1 := Codec.readBytes (r := rj) s
    have h2 : Codec rj false (GoM.modify (fun s' : St => { s' with strTab := s'.strTab ++ [s] }) >>= fun _ => pure s) [] s := by
      refine Codec.bind_f (a := []) (Codec.modify _ fun s => ⟨rfl, rfl, rfl⟩) (Codec.pure s)
    have := Codec.bind (b := false) (f := fun buf => GoM.modify (fun s' : St => { s' with strTab := s'.strTab ++ [buf] }) >>= fun _ => pure buf) h1 h2 (by simp [hs])
    simpa using this

theorem codec_pushObj {α} {b : Bool} {m : GoM St α} {c y} (v : Val) (h : Codec rj b m c y) :
    Codec rj b (pushObj v >>= fun _ => m) c y :=
  Codec.bind_f (a := []) (f := fun _ => m) (Codec.modify _ fun s => ⟨rfl, rfl, rfl⟩) h

/-- Reading exactly the bytes of a non-empty byte string; no claim about truncated input. -/
theorem codec_readPadded (b : Bytes) (hb : b ≠ []) : Codec false false (readPadded b.length) b b where
  parse s rest hs hd _ := by
    have he : s.data ≠ [] := by rw [hd]; simp [hb]
    have hg : s.got b.length = b.length := by
      have := hs s.data.length
      unfold St.got
      have h1 : b.length ≤ s.data.length := by rw [hd]; simp
      have := List.length_pos_iff.mpr hb
      omega
    refine ⟨{ s with data := rest }, ?_, rfl, rfl, rfl⟩
    have : rawRead b.length s = (.ok b, { s with data := rest }) := by
      simp [rawRead, he, hg]
      rw [hd]
      simp
    simp [readPadded, GoM.bind_apply, this]
  reject hr := by simp at hr
  frag hr := by simp at hr
end codec

/-! ## Sorting by key -/

theorem bytesLt_irrefl (a : Bytes) : bytesLt a a = false := by
  induction a with
  | nil => rfl
  | cons x a ih => simp [bytesLt, ih]

theorem bytesLt_trans {a b c : Bytes} (h1 : bytesLt a b = true) (h2 : bytesLt b c = true) : bytesLt a c = true := by
  induction a generalizing b c with
  | nil =>
    cases b with
    | nil => simp [bytesLt] at h1
    | cons y b => cases c with
      | nil => simp [bytesLt] at h2
      | cons z c => rfl
  | cons x a ih =>
    cases b with
    | nil => simp [bytesLt] at h1
    | cons y b => cases c with
      | nil => simp [bytesLt] at h2
      | cons z c =>
        simp only [bytesLt] at h1 h2 ⊢
        simp only [UInt8.lt_iff_toNat_lt] at *
        split at h1
        · split at h2
          · rw [if_pos (by omega)]
          · split at h2
            · simp at h2
            · rw [if_pos (by omega)]
        · split at h1
          · simp at h1
          · split at h2
            · rw [if_pos (by omega)]
            · split at h2
              · simp at h2
              · rw [if_neg (by omega), if_neg (by omega)]
                exact ih h1 h2

theorem bytesLt_total {a b : Bytes} (h : a ≠ b) : bytesLt a b = true ∨ bytesLt b a = true := by
  induction a generalizing b with
  | nil => cases b with
    | nil => exact absurd rfl h
    | cons y b => exact .inl rfl
  | cons x a ih => cases b with
    | nil => exact .inr rfl
    | cons y b =>
      simp only [bytesLt]
      by_cases hxy : x < y
      · exact .inl (by simp [hxy])
      · by_cases hyx : y < x
        · exact .inr (by simp [hyx])
        · have : x = y := by
            apply UInt8.toNat_inj.mp
            simp only [UInt8.lt_iff_toNat_lt] at hxy hyx
            omega
          subst this
          have hab : a ≠ b := fun e => h (by rw [e])
          simpa using ih hab

theorem bytesLt_asymm {a b : Bytes} (h : bytesLt a b = true) : bytesLt b a = false := by
  cases hba : bytesLt b a
  · rfl
  · have := bytesLt_trans h hba
    rw [bytesLt_irrefl] at this
    exact absurd this (by simp)

theorem insertKey_comm {α} (a b : Bytes × α) (h : a.1 ≠ b.1) (l : List (Bytes × α)) :
    insertKey a (insertKey b l) = insertKey b (insertKey a l) := by
  induction l with
  | nil =>
    rcases bytesLt_total h with h1 | h1
    · simp [insertKey, h1, bytesLt_asymm h1]
    · simp [insertKey, h1, bytesLt_asymm h1]
  | cons c l ih =>
    by_cases hb : bytesLt b.1 c.1 = true
    · by_cases ha : bytesLt a.1 c.1 = true
      · rcases bytesLt_total h with h1 | h1
        · simp [insertKey, ha, hb, h1, bytesLt_asymm h1]
        · simp [insertKey, ha, hb, h1, bytesLt_asymm h1]
      · have hba : bytesLt b.1 a.1 = true := by
          rcases bytesLt_total h with h1 | h1
          · exact absurd (bytesLt_trans h1 hb) ha
          · exact h1
        simp [insertKey, ha, hb, bytesLt_asymm hba]
    · by_cases ha : bytesLt a.1 c.1 = true
      · have hab : bytesLt a.1 b.1 = true := by
          rcases bytesLt_total h with h1 | h1
          · exact h1
          · exact absurd (bytesLt_trans h1 ha) hb
        simp [insertKey, ha, hb, bytesLt_asymm hab]
      · simp [insertKey, ha, hb, ih]

theorem insertKey_perm {α} (a : Bytes × α) (l : List (Bytes × α)) : (insertKey a l).Perm (a :: l) := by
  induction l with
  | nil => exact List.Perm.refl _
  | cons c l ih =>
    unfold insertKey
    split
    · exact List.Perm.refl _
    · exact (List.Perm.cons c ih).trans (List.Perm.swap a c l)

theorem sortKeys_perm {α} (l : List (Bytes × α)) : (sortKeys l).Perm l := by
  induction l with
  | nil => exact List.Perm.refl _
  | cons a l ih => exact (insertKey_perm a _).trans (List.Perm.cons a ih)

/-- Sorting does not depend on the order in which distinct keys are listed. -/
theorem sortKeys_congr {α} {l l' : List (Bytes × α)} (h : l.Perm l') (hn : (l'.map Prod.fst).Nodup) :
    sortKeys l = sortKeys l' := by
  induction h with
  | nil => rfl
  | cons x _ ih =>
    simp only [List.map_cons, List.nodup_cons] at hn
    simp only [sortKeys, ih hn.2]
  | swap x y l =>
    simp only [List.map_cons, List.nodup_cons, List.mem_cons, not_or] at hn
    simp only [sortKeys]
    exact insertKey_comm _ _ (fun e => hn.1.1 e.symm) _
  | trans h1 h2 ih1 ih2 =>
    rw [ih1 ((h2.map Prod.fst).nodup_iff.mpr hn), ih2 hn]

theorem insertKey_map {α β} (f : α → β) (a : Bytes × α) (l : List (Bytes × α)) :
    insertKey (a.1, f a.2) (l.map fun e => (e.1, f e.2)) = (insertKey a l).map fun e => (e.1, f e.2) := by
  induction l with
  | nil => rfl
  | cons c l ih =>
    simp only [List.map_cons, insertKey]
    split <;> simp [ih]

theorem sortKeys_map {α β} (f : α → β) (l : List (Bytes × α)) :
    sortKeys (l.map fun e => (e.1, f e.2)) = (sortKeys l).map fun e => (e.1, f e.2) := by
  induction l with
  | nil => rfl
  | cons a l ih => simp only [List.map_cons, sortKeys, ih, insertKey_map]

/-! ## Encoder -/

theorem encF_map (kvs : List (Bytes × Val)) : encF kvs = kvs.map fun e => (e.1, enc e.2) := by
  induction kvs with
  | nil => rfl
  | cons e r ih => obtain ⟨k, v⟩ := e; simp [encF, ih]

theorem cnt_writeUint29 (v : UInt32) : Cnt 0 (writeUint29 v) := by
  unfold writeUint29
  split
  · exact Cnt.write (Cnt.pure.congr (by simp))
  · exact Cnt.fail _

theorem cnt_encodeUtf8 (s : Bytes) : Cnt 0 (encodeUtf8 s) :=
  (cnt_writeUint29 _).add fun n => Cnt.write (Cnt.pure.congr (by simp))

theorem cnt_runAll (l : List (GoM Sink Nat)) (h : ∀ m ∈ l, Cnt 0 m) (k : Nat) : Cnt k (runAll k l) := by
  induction l generalizing k with
  | nil => exact Cnt.pure
  | cons m l ih =>
    exact (h m (by simp)).add fun n => ih (fun m hm => h m (by simp [hm])) _

theorem cnt_entries (t : Bytes) (es : List (Bytes × GoM Sink Nat)) (h : ∀ e ∈ es, Cnt 0 e.2) :
    Cnt 0 (encodeEntries t es) := by
  refine Cnt.write ((cnt_writeUint29 _).add fun m => (cnt_encodeUtf8 t).add fun m' => ?_)
  refine ((cnt_runAll _ ?_ _).congr (by simp)).bind fun n => cnt_runAll _ ?_ _
  · intro m hm
    obtain ⟨e, _, rfl⟩ := List.mem_map.mp hm
    exact cnt_encodeUtf8 _
  · intro m hm
    obtain ⟨e, he, rfl⟩ := List.mem_map.mp hm
    exact h e ((sortKeys_perm es).mem_iff.mp he)

mutual
theorem cnt_enc : (v : Val) → Cnt 0 (enc v)
  | .nil => Cnt.write (Cnt.pure.congr rfl)
  | .bool true => Cnt.write (Cnt.pure.congr rfl)
  | .bool false => Cnt.write (Cnt.pure.congr rfl)
  | .int false i => by
    unfold enc
    split
    · exact Cnt.write ((cnt_writeUint29 _).add fun n => Cnt.pure.congr (by simp))
    · exact Cnt.write (Cnt.write (Cnt.pure.congr rfl))
  | .int true i => Cnt.write (Cnt.write (Cnt.pure.congr rfl))
  | .uint false i => by
    unfold enc
    split
    · exact Cnt.write ((cnt_writeUint29 _).add fun n => Cnt.pure.congr (by simp))
    · exact Cnt.write (Cnt.write (Cnt.pure.congr rfl))
  | .uint true i => Cnt.write (Cnt.write (Cnt.pure.congr rfl))
  | .f64 _ => Cnt.write (Cnt.write (Cnt.pure.congr rfl))
  | .str s => Cnt.write ((cnt_encodeUtf8 s).add fun n => Cnt.pure.congr (by simp))
  | .time t => Cnt.write (Cnt.write (Cnt.write (Cnt.pure.congr rfl)))
  | .bytes b => Cnt.write ((cnt_writeUint29 _).add fun n => Cnt.write (Cnt.pure.congr (by simp)))
  | .arr xs => Cnt.write ((cnt_writeUint29 _).add fun n => (cnt_encodeUtf8 []).add fun m =>
      (cnt_encL xs).add fun k => Cnt.pure.congr (by simp))
  | .obj kvs => cnt_entries _ _ (cnt_encF kvs)
  | .typed t kvs => cnt_entries _ _ (cnt_encF kvs)
  | .ecma _ _ => Cnt.fail _
  | .shared _ => Cnt.fail _
  | .other => Cnt.fail _
theorem cnt_encL : (vs : List Val) → Cnt 0 (encL vs)
  | [] => Cnt.pure
  | v :: vs => (cnt_enc v).add fun n => (cnt_encL vs).add fun m => Cnt.pure.congr (by simp)
theorem cnt_encF : (kvs : List (Bytes × Val)) → ∀ e ∈ encF kvs, Cnt 0 e.2
  | [], e, he => by simp [encF] at he
  | (k, v) :: r, e, he => by
    simp only [encF, List.mem_cons] at he
    rcases he with rfl | he
    · exact cnt_enc v
    · exact cnt_encF r e he
end

/-! ## Determinism -/
mutual
theorem enc_mapEq : (v w : Val) → MapEq v w → enc v = enc w
  | .arr xs, w, h => by
    simp only [MapEq] at h
    obtain ⟨ys, rfl, h⟩ := h
    have := enc_mapEqL xs ys h
    simp only [enc, this.1, this.2]
  | .obj kvs, w, h => by
    simp only [MapEq] at h
    obtain ⟨l, l', rfl, hp, hn, h⟩ := h
    have h1 := enc_mapEqF kvs l h
    have h2 : sortKeys (encF kvs) = sortKeys (encF l') := by
      rw [h1]
      refine sortKeys_congr ?_ ?_
      · rw [encF_map, encF_map]; exact hp.map _
      · rw [encF_map, List.map_map]; exact hn
    simp only [enc, encodeEntries, h2]
  | .typed t kvs, w, h => by
    simp only [MapEq] at h
    obtain ⟨l, l', rfl, hp, hn, h⟩ := h
    have h1 := enc_mapEqF kvs l h
    have h2 : sortKeys (encF kvs) = sortKeys (encF l') := by
      rw [h1]
      refine sortKeys_congr ?_ ?_
      · rw [encF_map, encF_map]; exact hp.map _
      · rw [encF_map, List.map_map]; exact hn
    simp only [enc, encodeEntries, h2]
  | .nil, w, h => by simp only [MapEq] at h; rw [h]
  | .bool _, w, h => by simp only [MapEq] at h; rw [h]
  | .f64 _, w, h => by simp only [MapEq] at h; rw [h]
  | .int _ _, w, h => by simp only [MapEq] at h; rw [h]
  | .uint _ _, w, h => by simp only [MapEq] at h; rw [h]
  | .str _, w, h => by simp only [MapEq] at h; rw [h]
  | .bytes _, w, h => by simp only [MapEq] at h; rw [h]
  | .time _, w, h => by simp only [MapEq] at h; rw [h]
  | .ecma _ _, w, h => by simp only [MapEq] at h; rw [h]
  | .shared _, w, h => by simp only [MapEq] at h; rw [h]
  | .other, w, h => by simp only [MapEq] at h; rw [h]
theorem enc_mapEqL : (xs ys : List Val) → MapEqL xs ys → xs.length = ys.length ∧ encL xs = encL ys
  | [], ys, h => by simp only [MapEqL] at h; simp [h]
  | x :: xs, ys, h => by
    simp only [MapEqL] at h
    obtain ⟨y, t, rfl, h1, h2⟩ := h
    have := enc_mapEqL xs t h2
    exact ⟨by simp [this.1], by simp only [encL, enc_mapEq x y h1, this.2]⟩
theorem enc_mapEqF : (kvs l : List (Bytes × Val)) → MapEqF kvs l → encF kvs = encF l
  | [], l, h => by simp only [MapEqF] at h; simp [h]
  | (k, v) :: r, l, h => by
    simp only [MapEqF] at h
    obtain ⟨w, t, rfl, h1, h2⟩ := h
    simp only [encF, enc_mapEq v w h1, enc_mapEqF r t h2]
end

/-! ## Round trip -/

mutual
/-- The bytes written for an encodable value. -/
def wire : Val → Bytes
  | .nil => [1]
  | .bool b => [if b then 3 else 2]
  | .int false i => if 0 ≤ i ∧ i < 536870911 then 4 :: u29 i.toNat else 5 :: be64 (F64.ofInt i)
  | .int true i => 5 :: be64 (F64.ofInt i)
  | .uint false n => if n < 536870911 then 4 :: u29 n else 5 :: be64 (F64.ofInt n)
  | .uint true n => 5 :: be64 (F64.ofInt n)
  | .f64 f => 5 :: be64 f
  | .str s => 6 :: utf8 s
  | .bytes b => 12 :: (u29 (2 * b.length + 1) ++ b)
  | .time sec => 8 :: (u29 1 ++ be64 (F64.ofInt (sec * 1000)))
  | .arr xs => 9 :: (u29 (2 * xs.length + 1) ++ (utf8 [] ++ wireL xs))
  | .obj kvs => 10 :: objWire [] (sortKeys (wireF kvs))
  | .typed t kvs => 10 :: objWire t (sortKeys (wireF kvs))
  | _ => []
def wireL : List Val → Bytes
  | [] => []
  | v :: vs => wire v ++ wireL vs
def wireF : List (Bytes × Val) → List (Bytes × Bytes)
  | [] => []
  | (k, v) :: r => (k, wire v) :: wireF r
def objWire (t : Bytes) (l : List (Bytes × Bytes)) : Bytes :=
  u29 (16 * l.length + 3) ++ (utf8 t ++ ((l.flatMap fun e => utf8 e.1) ++ (l.flatMap fun e => e.2)))
end

mutual
/-- What the decoder returns for the encoding of a value. -/
def back : Val → Val
  | .int false i => if 0 ≤ i ∧ i < 536870911 then .uint false i.toNat else .f64 (F64.ofInt i)
  | .int true i => .f64 (F64.ofInt i)
  | .uint false n => if n < 536870911 then .uint false n else .f64 (F64.ofInt n)
  | .uint true n => .f64 (F64.ofInt n)
  | .arr xs => .ecma (backL xs) []
  | .obj kvs => .obj (sortKeys (backF kvs))
  | .typed _ kvs => .obj (sortKeys (backF kvs))
  | v => v
def backL : List Val → List Val
  | [] => []
  | v :: vs => back v :: backL vs
def backF : List (Bytes × Val) → List (Bytes × Val)
  | [] => []
  | (k, v) :: r => (k, back v) :: backF r
end

theorem wireF_map (kvs : List (Bytes × Val)) : wireF kvs = kvs.map fun e => (e.1, wire e.2) := by
  induction kvs with
  | nil => rfl
  | cons e r ih => obtain ⟨k, v⟩ := e; simp [wireF, ih]

theorem backF_map (kvs : List (Bytes × Val)) : backF kvs = kvs.map fun e => (e.1, back e.2) := by
  induction kvs with
  | nil => rfl
  | cons e r ih => obtain ⟨k, v⟩ := e; simp [backF, ih]

theorem encodableF_iff (kvs : List (Bytes × Val)) :
    EncodableF kvs ↔ ∀ e ∈ kvs, e.1.length < 2 ^ 28 ∧ Encodable e.2 := by
  induction kvs with
  | nil => simp [EncodableF]
  | cons e r ih => obtain ⟨k, v⟩ := e; simp [EncodableF, ih, and_assoc]

theorem emits_double (f : UInt64) : Emits (encodeDouble f) [[5], be64 f] (.ok 9) :=
  (Emits.writeByte 5).bind ((Emits.write _).map)

theorem emits_utf8 (s : Bytes) (h : s.length < 2 ^ 28) :
    Emits (encodeUtf8 s) [u29 (2 * s.length + 1), s] (.ok (utf8 s).length) := by
  refine Emits.congr ((emits_encodeUint29 _ h).bind ((Emits.write s).map)) rfl ?_
  simp [utf8]

theorem emits_runAll {α} (g : α → GoM Sink Nat) (wr : α → Bytes) (l : List α)
    (h : ∀ e ∈ l, ∃ cs, cs.flatten = wr e ∧ Emits (g e) cs (.ok (wr e).length)) (n : Nat) :
    ∃ cs, cs.flatten = l.flatMap wr ∧ Emits (runAll n (l.map g)) cs (.ok (n + (l.flatMap wr).length)) := by
  induction l generalizing n with
  | nil => exact ⟨[], rfl, Emits.pure n⟩
  | cons e l ih =>
    obtain ⟨cs, h1, h2⟩ := h e (by simp)
    obtain ⟨ds, h3, h4⟩ := ih (fun e he => h e (by simp [he])) (n + (wr e).length)
    refine ⟨cs ++ ds, by simp [h1, h3], Emits.congr (h2.bind h4) rfl ?_⟩
    simp [Nat.add_assoc]

theorem hdr (n : Nat) (h : n < 2 ^ 25) : ((3 : UInt32) ||| (UInt32.ofNat n <<< 4)).toNat = 16 * n + 3 := by
  simp [UInt32.toNat_or, UInt32.toNat_shiftLeft, UInt32.toNat_ofNat', Nat.shiftLeft_eq]
  rw [Nat.mod_eq_of_lt (show n * 16 < 4294967296 by omega), Nat.or_comm]
  have := Nat.two_pow_add_eq_or_of_lt (i := 4) (b := 3) (by omega) n
  rw [show 2 ^ 4 = 16 from rfl, Nat.mul_comm] at this
  rw [← this]
  omega

theorem emits_entries (t : Bytes) (kvs : List (Bytes × Val)) (ht : t.length < 2 ^ 28) (hl : kvs.length < 2 ^ 25)
    (hk : ∀ e ∈ kvs, e.1.length < 2 ^ 28)
    (h : ∀ e ∈ kvs, ∃ cs, cs.flatten = wire e.2 ∧ Emits (enc e.2) cs (.ok (wire e.2).length)) :
    ∃ cs, cs.flatten = 10 :: objWire t (sortKeys (wireF kvs)) ∧
      Emits (encodeEntries t (encF kvs)) cs (.ok (10 :: objWire t (sortKeys (wireF kvs))).length) := by
  have hs1 : sortKeys (encF kvs) = (sortKeys kvs).map fun e => (e.1, enc e.2) := by
    rw [encF_map, sortKeys_map]
  have hs2 : sortKeys (wireF kvs) = (sortKeys kvs).map fun e => (e.1, wire e.2) := by
    rw [wireF_map, sortKeys_map]
  have hp := sortKeys_perm kvs
  unfold encodeEntries objWire
  rw [hs1, hs2]
  simp only [List.map_map, List.length_map, Function.comp_def, List.flatMap_map]
  have hlen := hp.length_eq
  obtain ⟨cs, c1, c2⟩ := emits_runAll (fun e : Bytes × Val => encodeUtf8 e.1) (fun e => utf8 e.1) (sortKeys kvs)
    (fun e he => ⟨_, by simp [utf8], emits_utf8 _ (hk e (hp.mem_iff.mp he))⟩)
    (1 + (u29 (16 * (sortKeys kvs).length + 3)).length + (utf8 t).length)
  obtain ⟨ds, d1, d2⟩ := emits_runAll (fun e : Bytes × Val => enc e.2) (fun e => wire e.2) (sortKeys kvs)
    (fun e he => h e (hp.mem_iff.mp he))
    (1 + (u29 (16 * (sortKeys kvs).length + 3)).length + (utf8 t).length + ((sortKeys kvs).flatMap fun e => utf8 e.1).length)
  have hu := emits_writeUint29 ((3 : UInt32) ||| (UInt32.ofNat (sortKeys kvs).length <<< 4))
    (by rw [hdr _ (by omega)]; omega)
  rw [hdr _ (by omega)] at hu
  refine ⟨_, ?_, Emits.congr ((Emits.writeByte 10).bind (hu.bind ((emits_utf8 t ht).bind (c2.bind d2)))) rfl ?_⟩
  · simp [c1, d1, utf8]
  · simp; omega

mutual
theorem emits_wire : (v : Val) → Encodable v → ∃ cs, cs.flatten = wire v ∧ Emits (enc v) cs (.ok (wire v).length)
  | .nil, _ => ⟨_, rfl, (Emits.writeByte 1).map⟩
  | .bool true, _ => ⟨_, rfl, (Emits.writeByte 3).map⟩
  | .bool false, _ => ⟨_, rfl, (Emits.writeByte 2).map⟩
  | .int false i, h => by
    simp only [Encodable] at h
    by_cases hi : 0 ≤ i ∧ i < 536870911
    · have hc : -536870911 ≤ i ∧ i < 536870911 := by omega
      simp only [enc, wire, if_pos hi, if_pos hc]
      have he : (UInt32.ofNat (i % 2 ^ 32).toNat).toNat = i.toNat := by
        rw [UInt32.toNat_ofNat']; omega
      have := emits_writeUint29 (UInt32.ofNat (i % 2 ^ 32).toNat) (by rw [he]; omega)
      rw [he] at this
      refine ⟨_, ?_, Emits.congr ((Emits.writeByte 4).bind this.map) rfl ?_⟩
      · simp
      · simp; omega
    · simp only [enc, wire, hi, if_false]
      rw [if_neg (by omega)]
      exact ⟨_, by simp, emits_double _⟩
  | .int true i, _ => ⟨_, by simp [wire], emits_double _⟩
  | .uint false n, _ => by
    by_cases hi : n < 536870911
    · simp only [enc, wire, hi, if_true]
      have he : (UInt32.ofNat n).toNat = n := by
        rw [UInt32.toNat_ofNat', Nat.mod_eq_of_lt]; omega
      have := emits_writeUint29 (UInt32.ofNat n) (by rw [he]; omega)
      rw [he] at this
      refine ⟨_, ?_, Emits.congr ((Emits.writeByte 4).bind this.map) rfl ?_⟩
      · simp
      · simp; omega
    · simp only [enc, wire, hi, if_false]
      exact ⟨_, by simp, emits_double _⟩
  | .uint true i, _ => ⟨_, by simp [wire], emits_double _⟩
  | .f64 f, _ => ⟨_, by simp [wire], emits_double _⟩
  | .str s, h => by
    simp only [Encodable] at h
    refine ⟨_, ?_, Emits.congr ((Emits.writeByte 6).bind (emits_utf8 s h).map) rfl ?_⟩
    · simp [wire, utf8]
    · simp [wire]; omega
  | .bytes b, h => by
    simp only [Encodable] at h
    refine ⟨_, ?_, Emits.congr ((Emits.writeByte 12).bind ((emits_encodeUint29 _ h).bind (Emits.write b).map)) rfl ?_⟩
    · simp [wire]
    · simp [wire]; omega
  | .arr xs, h => by
    simp only [Encodable] at h
    obtain ⟨cs, h1, h2⟩ := emits_wireL xs h.2
    refine ⟨_, ?_, Emits.congr ((Emits.writeByte 9).bind ((emits_encodeUint29 _ h.1).bind
      ((emits_utf8 [] (by simp)).bind h2.map))) rfl ?_⟩
    · simp [wire, h1, utf8]
    · simp [wire]; omega
  | .obj kvs, h => by
    simp only [Encodable] at h
    exact emits_entries [] kvs (by simp) h.1 (fun e he => ((encodableF_iff kvs).mp h.2.2 e he).1) (emits_wireF kvs h.2.2)
  | .typed t kvs, h => by
    simp only [Encodable] at h
    exact emits_entries t kvs h.1 h.2.1 (fun e he => ((encodableF_iff kvs).mp h.2.2.2 e he).1) (emits_wireF kvs h.2.2.2)
  | .time sec, h => by
    simp only [Encodable] at h
    have hE : Emits (enc (.time sec)) _ _ :=
      (Emits.writeByte 8).bind ((Emits.writeByte 1).bind ((Emits.write (be64 (F64.mul1000 (F64.ofInt sec)))).map))
    rw [F64.mul1000_int sec h] at hE
    exact ⟨_, by simp [wire, u29], Emits.congr hE rfl (by simp [wire, u29, Amf0.be64_length])⟩
  | .ecma _ _, h => by simp [Encodable] at h
  | .shared _, h => by simp [Encodable] at h
  | .other, h => by simp [Encodable] at h
theorem emits_wireL : (vs : List Val) → EncodableL vs →
    ∃ cs, cs.flatten = wireL vs ∧ Emits (encL vs) cs (.ok (wireL vs).length)
  | [], _ => ⟨_, rfl, Emits.pure 0⟩
  | v :: vs, h => by
    simp only [EncodableL] at h
    obtain ⟨cs, h1, hc⟩ := emits_wire v h.1
    obtain ⟨ds, h2, hd⟩ := emits_wireL vs h.2
    exact ⟨_, by simp [wireL, h1, h2], (hc.bind hd.map).congr rfl (by simp [wireL])⟩
theorem emits_wireF : (kvs : List (Bytes × Val)) → EncodableF kvs →
    ∀ e ∈ kvs, ∃ cs, cs.flatten = wire e.2 ∧ Emits (enc e.2) cs (.ok (wire e.2).length)
  | [], _, e, he => by simp at he
  | (k, v) :: r, h, e, he => by
    simp only [EncodableF] at h
    rcases List.mem_cons.mp he with rfl | he
    · exact emits_wire v h.2.1
    · exact emits_wireF r h.2.2 e he
end

section codec
variable {rj : Bool} (H : Handlers)

/-- Everything `dec` does after reading the marker. -/
def branch (fuel : Nat) (marker : UInt8) : GoM St Val :=
    if marker = 0x00 ∨ marker = 0x01 then pure .nil
    else if marker = 0x02 then pure (.bool false)
    else if marker = 0x03 then pure (.bool true)
    else if marker = 0x04 then do
      let u ← readUint29
      pure (.uint false u.toNat)
    else if marker = 0x05 then do
      let f ← readF64
      pure (.f64 f)
    else if marker = 0x06 then do
      let s ← decodeString
      pure (.str s)
    else if marker = 0x07 then decodeXmlDoc
    else if marker = 0x08 then decodeDate
    else if marker = 0x09 then decodeArray (dec H fuel) fuel
    else if marker = 0x0a then decodeObject H (dec H fuel) fuel
    else if marker = 0x0b then decodeXmlDoc
    else if marker = 0x0c then decodeByteArray
    else GoM.fail .other

theorem dec_succ (fuel : Nat) : dec H (fuel + 1) = readByte >>= branch H fuel := rfl

theorem codec_marker {b : Bool} {fuel : Nat} {m : UInt8} {c : Bytes} {y : Val} (h : Codec rj b (branch H fuel m) c y) :
    Codec rj b (dec H (fuel + 1)) (m :: c) y := by
  rw [dec_succ]
  exact Codec.bind_f (a := [m]) (Codec.readByte m) h

theorem mem_le_sum {l : List Nat} {x : Nat} (h : x ∈ l) : x ≤ l.sum := by
  induction l with
  | nil => simp at h
  | cons y l ih =>
    rcases List.mem_cons.mp h with rfl | h
    · simp
    · have := ih h; simp; omega

theorem codec_readF64 (f : UInt64) : Codec rj false readF64 (be64 f) f := by
  have := (Codec.readFull (r := rj) (be64 f) (Amf0.be64_length f) (by omega)).map (fun b => UInt64.ofNat (beNat b))
  rwa [beNat_be64] at this

theorem codec_mapErr {α} {b : Bool} {e : Err} {m : GoM St α} {a : Bytes} {x : α} (h : Codec rj b m a x) : Codec rj b (mapErr e m) a x where
  parse s rest h1 h2 h3 := by
    obtain ⟨s', g1, g2⟩ := h.parse s rest h1 h2 h3
    exact ⟨s', by simp only [mapErr, g1], g2⟩
  reject hr s p q h1 h2 h3 h4 := by
    obtain ⟨e', s', g⟩ := h.reject hr s p q h1 h2 h3 h4
    exact ⟨e, s', by simp only [mapErr, g]⟩
  frag hr s rest h1 := by
    rcases h.frag hr s rest h1 with ⟨e', s', g⟩ | ⟨s', g1, g2⟩
    · exact .inl ⟨e, s', by simp only [mapErr, g]⟩
    · exact .inr ⟨s', by simp only [mapErr, g1], g2⟩

theorem codec_date (sec : Int) (h : (sec * 1000).natAbs ≤ 2 ^ 53) :
    Codec rj false decodeDate (u29 1 ++ be64 (F64.ofInt (sec * 1000))) (.time sec) := by
  unfold decodeDate
  refine Codec.bind_f (codec_decodeUint29 0 (by omega)) ?_
  have := Codec.bind_f (f := fun f => do
    pushObj (Val.time (F64.toInt64 (F64.div1000 f)))
    Pure.pure (Val.time (F64.toInt64 (F64.div1000 f)))) (c := []) (y := .time sec)
    (codec_mapErr (e := .other) (codec_readF64 (rj := rj) (F64.ofInt (sec * 1000)))) (by
      rw [F64.div1000_int sec h, F64.toInt64_int sec (by omega)]
      exact codec_pushObj (.time sec) (Codec.pure (Val.time sec)))
  simpa using this

theorem codec_double (fuel : Nat) (f : UInt64) : Codec rj false (dec H (fuel + 1)) (5 :: be64 f) (.f64 f) :=
  codec_marker H ((codec_readF64 f).map Val.f64)

theorem codec_int (fuel n : Nat) (h : n < 536870911) : Codec rj false (dec H (fuel + 1)) (4 :: u29 n) (.uint false n) := by
  refine codec_marker H (Codec.congr ((codec_readUint29 n (by omega)).map fun u => Val.uint false u.toNat) rfl rfl ?_)
  congr 1
  rw [UInt32.toNat_ofNat', Nat.mod_eq_of_lt]; omega

theorem codec_propNames (ks : List Bytes) (h : ∀ k ∈ ks, k.length < 2 ^ 28) (acc : List Bytes) :
    Codec rj false (propNames ks.length acc) (ks.flatMap utf8) (acc ++ ks) := by
  induction ks generalizing acc with
  | nil => simpa [propNames] using Codec.pure (r := rj) acc
  | cons k ks ih =>
    have := Codec.bind_f (f := fun k => propNames ks.length (acc ++ [k])) (codec_string (rj := rj) k (h k (by simp)))
      (ih (fun k hk => h k (by simp [hk])) _)
    simpa [propNames] using this

theorem codec_propVals (d : GoM St Val) (l : List (Bytes × Val)) (wr : Val → Bytes) (bk : Val → Val)
    (h : ∀ e ∈ l, Codec rj false d (wr e.2) (bk e.2)) (acc : List (Bytes × Val))
    (hn : (acc.map Prod.fst ++ l.map Prod.fst).Nodup) :
    Codec rj false (propVals d (l.map Prod.fst) acc) (l.flatMap fun e => wr e.2)
      (acc ++ l.map fun e => (e.1, bk e.2)) := by
  induction l generalizing acc with
  | nil => simpa [propVals] using Codec.pure (r := rj) acc
  | cons e l ih =>
    have hfresh : e.1 ∉ acc.map Prod.fst := fun hm =>
      (List.nodup_append.mp hn).2.2 e.1 hm e.1 (by simp) rfl
    have := Codec.bind_f (f := fun v => propVals d (l.map Prod.fst) (mapSet acc e.1 v)) (h e (by simp)) (by
      simp only [Amf0.mapSet_fresh acc e.1 _ hfresh]
      exact ih (fun e he => h e (by simp [he])) (acc ++ [(e.1, bk e.2)]) (by simpa using hn))
    simpa [propVals] using this

theorem objHdr (n : Nat) (h : n < 2 ^ 25) : (16 * n + 3 = 2 * (8 * n + 1) + 1) ∧
    ¬ (UInt32.ofNat (8 * n + 1) &&& 1 = 0) ∧ (UInt32.ofNat (8 * n + 1) >>> 3).toNat = n := by
  have h1 : (UInt32.ofNat (8 * n + 1)).toNat = 8 * n + 1 := by
    rw [UInt32.toNat_ofNat', Nat.mod_eq_of_lt]; omega
  refine ⟨by omega, ?_, ?_⟩
  · intro h
    have := congrArg UInt32.toNat h
    rw [UInt32.toNat_and, h1] at this
    simp at this
    omega
  · rw [UInt32.toNat_shiftRight, h1]
    simp [Nat.shiftRight_eq_div_pow]
    omega

theorem codec_entries (t : Bytes) (kvs : List (Bytes × Val)) (fuel : Nat) (ht : t.length < 2 ^ 28)
    (hl : kvs.length < 2 ^ 25) (hk : ∀ e ∈ kvs, e.1.length < 2 ^ 28) (hn : (kvs.map Prod.fst).Nodup)
    (h : ∀ e ∈ kvs, Codec rj false (dec H fuel) (wire e.2) (back e.2)) :
    Codec rj false (decodeObject H (dec H fuel) fuel) (objWire t (sortKeys (wireF kvs)))
      (.obj (sortKeys (backF kvs))) := by
  have hs1 : sortKeys (backF kvs) = (sortKeys kvs).map fun e => (e.1, back e.2) := by
    rw [backF_map, sortKeys_map]
  have hs2 : sortKeys (wireF kvs) = (sortKeys kvs).map fun e => (e.1, wire e.2) := by
    rw [wireF_map, sortKeys_map]
  have hp := sortKeys_perm kvs
  unfold objWire
  rw [hs1, hs2]
  have hlen := hp.length_eq
  obtain ⟨o1, o2, o3⟩ := objHdr (sortKeys kvs).length (by omega)
  simp only [List.length_map, List.flatMap_map]
  rw [o1]
  refine Codec.bind_f (codec_decodeUint29 (8 * (sortKeys kvs).length + 1) (by omega)) ?_
  have hnames := codec_propNames (rj := rj) ((sortKeys kvs).map Prod.fst) (by
    intro k hk'
    obtain ⟨e, he, rfl⟩ := List.mem_map.mp hk'
    exact hk e (hp.mem_iff.mp he)) []
  simp only [List.length_map, List.flatMap_map, List.nil_append] at hnames
  have hvals := codec_propVals (dec H fuel) (sortKeys kvs) wire back (fun e he => h e (hp.mem_iff.mp he)) []
    (by simpa using (hp.map Prod.fst).nodup_iff.mpr hn)
  simp only [List.nil_append] at hvals
  have htrait : Codec rj false (decodeTrait (UInt32.ofNat (8 * (sortKeys kvs).length + 1)))
      (utf8 t ++ (sortKeys kvs).flatMap fun e => utf8 e.1) ⟨t, false, false, (sortKeys kvs).map Prod.fst⟩ := by
    unfold decodeTrait
    rw [if_neg o2, o3]
    refine Codec.bind_f (codec_string t ht) ?_
    simp only [and2_ne_one, and4_ne_one]
    have := Codec.bind_f (f := fun props => do
      GoM.modify (fun s : St => { s with traits := s.traits ++ [(⟨t, false, false, props⟩ : Trait)] })
      pure (⟨t, false, false, props⟩ : Trait)) hnames (c := []) (y := ⟨t, false, false, (sortKeys kvs).map Prod.fst⟩)
      (Codec.bind_f (a := []) (Codec.modify _ fun s => ⟨rfl, rfl, rfl⟩) (Codec.pure _))
    simpa using this
  rw [← List.append_assoc]
  refine Codec.bind_f htrait (codec_pushObj _ ?_)
  exact Codec.congr (Codec.map hvals Val.obj) rfl rfl rfl

mutual
theorem codec_wire : (v : Val) → Encodable v → (rj = true → NoBytes v) → (fuel : Nat) → (wire v).length < fuel →
    Codec rj false (dec H fuel) (wire v) (back v)
  | _, _, _, 0, hf => absurd hf (Nat.not_lt_zero _)
  | .nil, _, _, fuel + 1, _ => codec_marker H (Codec.pure _)
  | .bool true, _, _, fuel + 1, _ => codec_marker H (m := 3) (Codec.pure _)
  | .bool false, _, _, fuel + 1, _ => codec_marker H (m := 2) (Codec.pure _)
  | .int false i, h, _, fuel + 1, _ => by
    by_cases hi : 0 ≤ i ∧ i < 536870911
    · simp only [wire, back, hi, and_self, if_true]
      exact codec_int H fuel _ (by omega)
    · simp only [wire, back, hi, if_false]
      exact codec_double H fuel _
  | .int true i, _, _, fuel + 1, _ => codec_double H fuel _
  | .uint false n, _, _, fuel + 1, _ => by
    by_cases hi : n < 536870911
    · simp only [wire, back, hi, if_true]
      exact codec_int H fuel _ hi
    · simp only [wire, back, hi, if_false]
      exact codec_double H fuel _
  | .uint true n, _, _, fuel + 1, _ => codec_double H fuel _
  | .f64 f, _, _, fuel + 1, _ => codec_double H fuel _
  | .str s, h, _, fuel + 1, _ => codec_marker H ((codec_string s (by simpa [Encodable] using h)).map Val.str)
  | .bytes b, h, hr, fuel + 1, _ => by
    cases rj with
    | true => exact absurd (hr rfl) (by simp [NoBytes])
    | false =>
      simp only [Encodable] at h
      refine codec_marker H (m := 12) (Codec.bind_f (codec_decodeUint29 _ h) ?_)
      by_cases hb : b = []
      · subst hb
        simpa [back] using Codec.pure (r := false) (Val.bytes [])
      · have hl : (UInt32.ofNat b.length).toNat = b.length := by
          rw [UInt32.toNat_ofNat', Nat.mod_eq_of_lt]; omega
        have h0 : UInt32.ofNat b.length ≠ 0 := by
          intro h
          have := congrArg UInt32.toNat h
          rw [hl] at this
          exact hb (List.length_eq_zero_iff.mp this)
        have := Codec.bind_f (f := fun b => do pushObj (.bytes b); pure (Val.bytes b)) (codec_readPadded b hb)
          (codec_pushObj (.bytes b) (Codec.pure (Val.bytes b)))
        simpa [h0, hl, back] using this
  | .arr xs, h, hr, fuel + 1, hf => by
    simp only [Encodable] at h
    simp only [wire, List.length_cons, List.length_append] at hf
    have hl : (UInt32.ofNat xs.length).toNat = xs.length := by
      rw [UInt32.toNat_ofNat', Nat.mod_eq_of_lt]; omega
    have hfu : 0 < fuel := by
      have := List.length_pos_iff.mpr (u29_ne (2 * xs.length + 1))
      omega
    obtain ⟨f', rfl⟩ : ∃ f', fuel = f' + 1 := ⟨fuel - 1, by omega⟩
    refine codec_marker H (m := 9) (Codec.bind_f (codec_decodeUint29 _ h.1) ?_)
    simp only [Bool.false_eq_true, if_false, hl, back]
    refine Codec.bind_f (codec_string [] (by simp)) (codec_pushObj _ ?_)
    have h1 := codec_wireL xs h.2 (fun e => by simpa [NoBytes] using hr e) (f' + 1) (by omega) []
    refine Codec.bind_f (a := []) (x := []) (Codec.pure []) ?_
    exact Codec.congr (Codec.map h1 fun d => Val.ecma d []) rfl rfl (by simp)
  | .obj kvs, h, hr, fuel + 1, hf => by
    simp only [Encodable] at h
    refine codec_marker H (m := 10) (codec_entries H [] kvs fuel (by simp) h.1
      (fun e he => ((encodableF_iff kvs).mp h.2.2 e he).1) h.2.1 (codec_wireF kvs h.2.2 (fun e => by simpa [NoBytes] using hr e) fuel ?_))
    intro e he
    have hm : (e.1, wire e.2) ∈ sortKeys (wireF kvs) := by
      rw [(sortKeys_perm _).mem_iff, wireF_map]
      exact List.mem_map.mpr ⟨e, he, rfl⟩
    have : (wire e.2).length ≤ ((sortKeys (wireF kvs)).flatMap fun e => e.2).length := by
      rw [List.length_flatMap]
      exact mem_le_sum (List.mem_map.mpr ⟨_, hm, rfl⟩)
    simp only [wire, objWire, List.length_cons, List.length_append] at hf
    have := List.length_pos_iff.mpr (u29_ne (16 * (sortKeys (wireF kvs)).length + 3))
    omega
  | .typed t kvs, h, hr, fuel + 1, hf => by
    simp only [Encodable] at h
    refine codec_marker H (m := 10) (codec_entries H t kvs fuel h.1 h.2.1
      (fun e he => ((encodableF_iff kvs).mp h.2.2.2 e he).1) h.2.2.1 (codec_wireF kvs h.2.2.2 (fun e => by simpa [NoBytes] using hr e) fuel ?_))
    intro e he
    have hm : (e.1, wire e.2) ∈ sortKeys (wireF kvs) := by
      rw [(sortKeys_perm _).mem_iff, wireF_map]
      exact List.mem_map.mpr ⟨e, he, rfl⟩
    have : (wire e.2).length ≤ ((sortKeys (wireF kvs)).flatMap fun e => e.2).length := by
      rw [List.length_flatMap]
      exact mem_le_sum (List.mem_map.mpr ⟨_, hm, rfl⟩)
    simp only [wire, objWire, List.length_cons, List.length_append] at hf
    have := List.length_pos_iff.mpr (u29_ne (16 * (sortKeys (wireF kvs)).length + 3))
    omega
  | .time sec, h, _, fuel + 1, _ => codec_marker H (m := 8) (codec_date sec (by simpa [Encodable] using h))
  | .ecma _ _, h, _, _, _ => by simp [Encodable] at h
  | .shared _, h, _, _, _ => by simp [Encodable] at h
  | .other, h, _, _, _ => by simp [Encodable] at h
theorem codec_wireL : (vs : List Val) → EncodableL vs → (rj = true → NoBytesL vs) → (n : Nat) →
    (wireL vs).length < n → (acc : List Val) →
    Codec rj false (denseLoop (dec H n) vs.length acc) (wireL vs) (acc ++ backL vs)
  | [], _, _, n, _, acc => by simpa [wireL, backL, denseLoop] using Codec.pure (r := rj) acc
  | v :: vs, h, hr, n, hn, acc => by
    simp only [EncodableL] at h
    simp only [wireL, List.length_append] at hn
    have h1 := codec_wire v h.1 (fun e => (by simpa [NoBytesL] using hr e : _ ∧ _).1) n (by omega)
    have h2 := codec_wireL vs h.2 (fun e => (by simpa [NoBytesL] using hr e : _ ∧ _).2) n (by omega) (acc ++ [back v])
    have := Codec.bind_f (f := fun x => denseLoop (dec H n) vs.length (acc ++ [x])) h1 h2
    simpa [wireL, backL, denseLoop] using this
theorem codec_wireF : (kvs : List (Bytes × Val)) → EncodableF kvs → (rj = true → NoBytesF kvs) → (fuel : Nat) →
    (∀ e ∈ kvs, (wire e.2).length < fuel) → ∀ e ∈ kvs, Codec rj false (dec H fuel) (wire e.2) (back e.2)
  | [], _, _, _, _, e, he => by simp at he
  | (k, v) :: r, h, hr, fuel, hf, e, he => by
    simp only [EncodableF] at h
    rcases List.mem_cons.mp he with rfl | he
    · exact codec_wire v h.2.1 (fun e => (by simpa [NoBytesF] using hr e : _ ∧ _).1) fuel (hf (k, v) (by simp))
    · exact codec_wireF r h.2.2 (fun e => (by simpa [NoBytesF] using hr e : _ ∧ _).2) fuel
        (fun e he => hf e (by simp [he])) e he
end
end codec

mutual
theorem same_back : (v : Val) → Encodable v → Same v (back v)
  | .nil, _ => rfl
  | .bool _, _ => rfl
  | .f64 _, _ => rfl
  | .int false i, _ => by simp only [Same, back]; split <;> rfl
  | .int true i, _ => rfl
  | .uint false i, _ => by simp only [Same, back]; split <;> rfl
  | .uint true i, _ => rfl
  | .str _, _ => rfl
  | .bytes _, _ => rfl
  | .arr xs, h => ⟨_, rfl, same_backL xs (by simp only [Encodable] at h; exact h.2)⟩
  | .obj kvs, h => by
    simp only [Encodable] at h
    have hp := sortKeys_perm (backF kvs)
    refine ⟨_, rfl, ?_, ?_, same_backF kvs h.2.2 _ ?_⟩
    · rw [hp.length_eq, backF_map, List.length_map]
    · rw [(hp.map Prod.fst).nodup_iff, backF_map, List.map_map]; exact h.2.1
    · intro e he; exact hp.mem_iff.mpr he
  | .typed _ kvs, h => by
    simp only [Encodable] at h
    have hp := sortKeys_perm (backF kvs)
    refine ⟨_, rfl, ?_, ?_, same_backF kvs h.2.2.2 _ ?_⟩
    · rw [hp.length_eq, backF_map, List.length_map]
    · rw [(hp.map Prod.fst).nodup_iff, backF_map, List.map_map]; exact h.2.2.1
    · intro e he; exact hp.mem_iff.mpr he
  | .time _, _ => rfl
  | .ecma _ _, h => by simp [Encodable] at h
  | .shared _, h => by simp [Encodable] at h
  | .other, h => by simp [Encodable] at h
theorem same_backL : (vs : List Val) → EncodableL vs → SameL vs (backL vs)
  | [], _ => rfl
  | v :: vs, h => by
    simp only [EncodableL] at h
    exact ⟨_, _, rfl, same_back v h.1, same_backL vs h.2⟩
theorem same_backF : (kvs : List (Bytes × Val)) → EncodableF kvs → (l : List (Bytes × Val)) →
    (∀ e ∈ backF kvs, e ∈ l) → SameF kvs l
  | [], _, _, _ => trivial
  | (k, v) :: r, h, l, hl => by
    simp only [EncodableF] at h
    exact ⟨⟨back v, hl _ (by simp [backF]), same_back v h.2.1⟩,
      same_backF r h.2.2 l (fun e he => hl e (by simp [backF, he]))⟩
end

end Verif.Amf3
