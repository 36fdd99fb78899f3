import Verif.Props.Amf0
/-!
# Properties C19, C22, C23 and C25: how far the findings about AMF0 reach

The counterexamples of `Verif/Props/Amf0.lean` are instances of these general statements.
-/
namespace Verif.Props
open Verif Verif.Amf Verif.Spec.Amf Verif.Amf0 Verif.Spec.Amf0

/-! ## C19 -/

mutual
/-- A value whose encoding ends in an empty string, and with which the input of a `bytes.Reader` ends. -/
theorem dec_endsEmpty : (v : Val) → Encodable v → endsEmpty v = true → (n : Nat) → (wire v).length < n → (s : St) → s.Contig →
    s.eofOnEmpty = true → s.data = wire v → ∃ s', Amf0.dec n s = (.err .eof, s')
  | .str s, _, he, n + 1, _, st, _, hr, hd => by
    have : s = [] := by simpa [endsEmpty] using he
    subst this
    have hd : st.data = [2, 0, 0] := hd
    rw [dec_succ, GoM.bind_apply, Safe.readByte_cons hd]
    simp [branch, GoM.bind_apply, Amf0.decodeString, Amf0.readU16, readFull, readBytes, rawRead, hr, beNat]
  | .arr xs, hv, he, n + 1, hn, st, hs, hr, hd => by
    simp only [Encodable] at hv
    simp only [endsEmpty] at he
    simp only [wire] at hd hn
    rw [dec_succ, GoM.bind_apply, Safe.readByte_cons (x := 10) (t := be32 (UInt32.ofNat xs.length) ++ wireL xs) (by simpa using hd)]
    have hu : Amf0.readU32 { st with data := be32 (UInt32.ofNat xs.length) ++ wireL xs } = (.ok xs.length, { st with data := wireL xs }) := by
      simp only [Amf0.readU32, GoM.bind_apply, readFull]
      rw [if_neg (by simp [be32]), if_neg (by simp [be32])]
      have : beNat (be32 (UInt32.ofNat xs.length)) = xs.length := beNat_be32 _ hv.1
      have ht : List.take 4 (be32 (UInt32.ofNat xs.length) ++ wireL xs) = be32 (UInt32.ofNat xs.length) := rfl
      have hdr : List.drop 4 (be32 (UInt32.ofNat xs.length) ++ wireL xs) = wireL xs := rfl
      simp only [ht, hdr, this, GoM.pure_apply]
    obtain ⟨s', h⟩ := dec_endsEmptyL xs hv.2 he n (by simp at hn; omega) [] { st with data := wireL xs, refs0 := st.refs0 ++ [.nilArray] } hs hr rfl
    refine ⟨s', ?_⟩
    simp [branch, GoM.bind_apply, Amf0.decodeStrictArray, hu, Amf0.pushRef, h]
theorem dec_endsEmptyL : (xs : List Val) → EncodableL xs → endsEmptyL xs = true → (n : Nat) → (wireL xs).length < n → (acc : List Val) → (s : St) → s.Contig →
    s.eofOnEmpty = true → s.data = wireL xs → ∃ s', Amf0.arrLoop (Amf0.dec n) xs.length acc s = (.err .eof, s')
  | [v], hv, he, n, hn, acc, s, hs, hr, hd => by
    obtain ⟨s', h⟩ := dec_endsEmpty v hv.1 he n (by simpa [wireL] using hn) s hs hr (by simpa [wireL] using hd)
    exact ⟨s', by simp [Amf0.arrLoop, GoM.bind_apply, h]⟩
  | v :: w :: xs, hv, he, n, hn, acc, s, hs, hr, hd => by
    have hwl : wireL (v :: w :: xs) = wire v ++ wireL (w :: xs) := rfl
    rw [hwl] at hn hd
    rw [List.length_append] at hn
    obtain ⟨s1, h1, h2, h3, h4⟩ := (codec_wire (rj := false) v hv.1 n (by omega)).parse s (wireL (w :: xs)) hs hd (by
      intro _ _ h0
      exact wire_ne' w hv.2.1 (List.append_eq_nil_iff.1 h0).1)
    obtain ⟨s', h⟩ := dec_endsEmptyL (w :: xs) hv.2 he n (by omega) (acc ++ [numbers v]) s1 (by unfold St.Contig; rw [h4]; exact hs)
      (h3.trans hr) h2
    refine ⟨s', ?_⟩
    show Amf0.arrLoop (Amf0.dec n) ((w :: xs).length + 1) acc s = _
    rw [Amf0.arrLoop, GoM.bind_apply, h1]
    exact h
end

/-- C19 fails for every batch whose last value ends in an empty string: read from a `bytes.Reader`, `DecodeBatch` reports the values before
it as the whole batch.  With `C19_amf0_batch_reader_partial` this settles every batch. -/
theorem C19_amf0_lost_value_refuted (vs : List Val) (h : ∀ v ∈ vs, Encodable v ∧ Plain v) (v : Val) (hv : Encodable v) (he : endsEmpty v = true) :
    ∃ s', Amf0.decodeBatch (St.reader (amf0Batch (vs ++ [v]))) = (.ok (vs, none), s') := by
  have hE : ∀ v ∈ vs, Encodable v := fun v hv => (h v hv).1
  have hE' : ∀ w ∈ vs ++ [v], Encodable w := by
    intro w hw
    rcases List.mem_append.1 hw with hw | hw
    · exact hE w hw
    · rw [List.mem_singleton.1 hw]; exact hv
  rw [amf0Batch_wire _ hE']
  have key : ∀ (vs : List Val), (∀ v ∈ vs, Encodable v) → ∀ (fuel : Nat) (ret : List Val) (s : St), vs.length < fuel → s.Contig → s.eofOnEmpty = true →
      s.data = vs.flatMap wire ++ wire v → ∃ s', Amf3.batchLoop Amf0.decode fuel ret s = (.ok (ret ++ vs.map numbers, none), s') := by
    intro vs
    induction vs with
    | nil =>
      intro _ fuel ret s hf hs hb hd
      obtain ⟨f, rfl⟩ : ∃ f, fuel = f + 1 := ⟨fuel - 1, by simp at hf; omega⟩
      have hd : s.data = wire v := by simpa using hd
      obtain ⟨s', hx⟩ := dec_endsEmpty v hv he (s.data.length + 1) (by rw [hd]; omega) s hs hb hd
      have hx : Amf0.decode s = (.err .eof, s') := hx
      exact ⟨s', by simp [Amf3.batchLoop, hx]⟩
    | cons w vs ih =>
      intro hvs fuel ret s hf hs hb hd
      obtain ⟨f, rfl⟩ : ∃ f, fuel = f + 1 := ⟨fuel - 1, by simp at hf; omega⟩
      obtain ⟨s1, h1, h2, h3, h4⟩ := Amf0.valCodec.parse w (hvs w (by simp)) s (vs.flatMap wire ++ wire v) hs (by simpa using hd)
        (fun _ _ h0 => wire_ne' v hv (List.append_eq_nil_iff.1 h0).2)
      obtain ⟨s', h5⟩ := ih (fun w hw => hvs w (by simp [hw])) f (ret ++ [numbers w]) s1 (by simp at hf; omega)
        (by unfold St.Contig; rw [h4]; exact hs) (by rw [h3]; exact hb) h2
      exact ⟨s', by simp [Amf3.batchLoop, h1, h5]⟩
  have hlen : vs.length ≤ (vs.flatMap wire).length := by
    clear h hE'
    induction vs with
    | nil => simp
    | cons w vs ih =>
      have := List.length_pos_iff.2 (wire_ne' w (hE w (by simp)))
      have := ih fun w hw => hE w (by simp [hw])
      simp only [List.flatMap_cons, List.length_append, List.length_cons]
      omega
  rw [List.flatMap_append, List.flatMap_cons, List.flatMap_nil, List.append_nil]
  obtain ⟨s', hk⟩ := key vs hE ((vs.flatMap wire ++ wire v).length + 1) [] (St.reader (vs.flatMap wire ++ wire v))
    (by rw [List.length_append]; omega) (fun _ => Nat.le_refl _) rfl rfl
  have hm : vs.map numbers = vs :=
    (List.map_congr_left fun v hv => numbers_plain v (h v hv).2).trans (List.map_id _)
  rw [hm] at hk
  exact ⟨s', hk⟩

example : ∃ s', Amf0.decodeBatch (St.reader (amf0Batch ([sampleVal, sampleVal] ++ [.arr [.nil, .arr [.str []]]]))) =
    (.ok ([sampleVal, sampleVal], none), s') :=
  C19_amf0_lost_value_refuted _ (by simpa using sampleVal_ok) (.arr [.nil, .arr [.str []]]) (by simp [Encodable, EncodableL]) (by decide)

/-! ## C22 -/

/-- A value cut behind its first byte looks like the end of the input. -/
theorem decode_cut (v : Val) (hv : Encodable v) (hn : v ≠ .nil) (s : St) (m : UInt8) (hm : (wire v).head? = some m) (hd : s.data = [m]) :
    ∃ s', Amf0.decode s = (.err .eof, s') := by
  have hfull : ∀ (n : Nat) (t : St), t.data = [] → readFull n t = (.err .eof, t) := by
    intro n t ht
    unfold readFull
    rw [if_pos (by simp [ht])]
  have key : m = 0 ∨ m = 1 ∨ m = 2 ∨ m = 3 ∨ m = 10 ∨ m = 12 ∨ m = 16 := by
    cases v <;> simp [Encodable] at hv hn <;> simp [wire, number] at hm
    case str s =>
      split at hm <;> simp at hm <;> simp [← hm]
    all_goals simp [← hm]
  show ∃ s', Amf0.dec (s.data.length + 1) s = _
  rw [dec_succ, GoM.bind_apply, Safe.readByte_cons hd]
  rcases key with rfl | rfl | rfl | rfl | rfl | rfl | rfl <;>
    simp [branch, GoM.bind_apply, hfull, Safe.readByte_nil, Amf0.decodeString, Amf0.readU16, Amf0.readU32, Amf0.decodeLongString, Amf0.decodeStrictArray,
      Amf0.decodeObject, Amf0.decodeTypedObject, Amf0.pushRef, hd, Amf0.objLoop]

/-- C22 fails for every batch and every value after it that has more than one byte: cut behind its first byte, `DecodeBatch` reports
the batch as complete. -/
theorem C22_amf0_silent_cut_refuted (vs : List Val) (h : ∀ v ∈ vs, Encodable v ∧ Plain v) (v : Val) (hv : Encodable v) (hn : v ≠ .nil) :
    (amf0Bytes v).take 1 ≠ amf0Bytes v ∧
    ∃ s', Amf0.decodeBatch (St.buffer (amf0Batch vs ++ (amf0Bytes v).take 1)) = (.ok (vs, none), s') := by
  have he : ∀ v ∈ vs, Encodable v := fun v hv => (h v hv).1
  rw [amf0Bytes_wire v hv, amf0Batch_wire vs he]
  have hlw : 1 < (wire v).length := by
    cases v <;> simp [Encodable] at hv hn <;> simp [wire, number, utf8, be16, be32, be64]
    case str s => split <;> simp [utf8, utf8Long, be16, be32]
    case obj kvs =>
      cases kvs with
      | nil => simp [wireF]
      | cons e kvs => simp [wireF, utf8, be16]
  obtain ⟨m, t, hw, ht⟩ : ∃ m t, wire v = m :: t ∧ t ≠ [] := by
    match hw : wire v with
    | [] => simp [hw] at hlw
    | [m] => simp [hw] at hlw
    | m :: a :: t => exact ⟨m, a :: t, rfl, by simp⟩
  refine ⟨by rw [hw]; simpa using ht.symm, ?_⟩
  have key : ∀ (vs : List Val), (∀ v ∈ vs, Encodable v) → ∀ (fuel : Nat) (ret : List Val) (s : St), vs.length < fuel → s.Contig → s.eofOnEmpty = false →
      s.data = vs.flatMap wire ++ [m] → ∃ s', Amf3.batchLoop Amf0.decode fuel ret s = (.ok (ret ++ vs.map numbers, none), s') := by
    intro vs
    induction vs with
    | nil =>
      intro _ fuel ret s hf hs hb hd
      obtain ⟨f, rfl⟩ : ∃ f, fuel = f + 1 := ⟨fuel - 1, by simp at hf; omega⟩
      obtain ⟨s', he⟩ := decode_cut v hv hn s m (by rw [hw]; rfl) (by simpa using hd)
      exact ⟨s', by simp [Amf3.batchLoop, he]⟩
    | cons w vs ih =>
      intro hvs fuel ret s hf hs hb hd
      obtain ⟨f, rfl⟩ : ∃ f, fuel = f + 1 := ⟨fuel - 1, by simp at hf; omega⟩
      obtain ⟨s1, h1, h2, h3, h4⟩ := Amf0.valCodec.parse w (hvs w (by simp)) s (vs.flatMap wire ++ [m]) hs (by simpa using hd) (by simp)
      obtain ⟨s', h5⟩ := ih (fun w hw => hvs w (by simp [hw])) f (ret ++ [numbers w]) s1 (by simp at hf; omega)
        (by unfold St.Contig; rw [h4]; exact hs) (by rw [h3]; exact hb) h2
      exact ⟨s', by simp [Amf3.batchLoop, h1, h5]⟩
  have hlen : vs.length ≤ (vs.flatMap wire).length := by
    clear h
    induction vs with
    | nil => simp
    | cons w vs ih =>
      have := List.length_pos_iff.2 (wire_ne' w (he w (by simp)))
      have := ih fun w hw => he w (by simp [hw])
      simp only [List.flatMap_cons, List.length_append, List.length_cons]
      omega
  obtain ⟨s', hk⟩ := key vs he ((vs.flatMap wire ++ (wire v).take 1).length + 1) [] (St.buffer (vs.flatMap wire ++ (wire v).take 1))
    (by rw [List.length_append]; omega) (fun _ => Nat.le_refl _) rfl (by rw [hw]; rfl)
  have hm : vs.map numbers = vs :=
    (List.map_congr_left fun v hv => numbers_plain v (h v hv).2).trans (List.map_id _)
  rw [hm] at hk
  exact ⟨s', hk⟩

example : ∃ s', Amf0.decodeBatch (St.buffer (amf0Batch [sampleVal, sampleVal] ++ (amf0Bytes (.str [97, 98])).take 1)) =
    (.ok ([sampleVal, sampleVal], none), s') :=
  (C22_amf0_silent_cut_refuted _ (by simpa using sampleVal_ok) (.str [97, 98]) (by simp [Encodable]) (by simp)).2

/-! ## C23, C25 -/

/-- What `Decode` does with a reference. -/
theorem decode_reference (s : St) (i : Nat) (hi : i < 65536) (rest : Bytes) (hd : s.data = 7 :: be16 (UInt16.ofNat i) ++ rest) :
    Amf0.decode s = (if i > s.refs0.length then .err .other else match s.refs0[i]? with
      | some (.object _) => .ok (.shared i)
      | some .nilArray => .ok (.arr [])
      | some .zeroTyped => .ok (.typed [] [])
      | none => .panic, { s with data := rest }) := by
  unfold Amf0.decode
  rw [dec_succ, GoM.bind_apply, Safe.readByte_cons (x := 7) (t := be16 (UInt16.ofNat i) ++ rest) (by simpa using hd)]
  have hu : Amf0.readU16 { s with data := be16 (UInt16.ofNat i) ++ rest } = (.ok i, { s with data := rest }) := by
    simp only [Amf0.readU16, GoM.bind_apply, readFull]
    rw [if_neg (by simp [be16]), if_neg (by simp [be16])]
    have : beNat (be16 (UInt16.ofNat i)) = i := beNat_be16 _ hi
    have ht : List.take 2 (be16 (UInt16.ofNat i) ++ rest) = be16 (UInt16.ofNat i) := rfl
    have hdr : List.drop 2 (be16 (UInt16.ofNat i) ++ rest) = rest := rfl
    simp only [ht, hdr, this, GoM.pure_apply]
  simp only [branch]
  simp only [show ((7 : UInt8) = 0) = False by decide, show ((7 : UInt8) = 1) = False by decide,
    show ((7 : UInt8) = 2) = False by decide, show ((7 : UInt8) = 3) = False by decide,
    show ((7 : UInt8) = 4) = False by decide, show ((7 : UInt8) = 5) = False by decide,
    show ((7 : UInt8) = 6) = False by decide, show ((7 : UInt8) = 13) = False by decide, false_or, if_false, if_true]
  simp only [Amf0.decodeReference, GoM.bind_apply, hu, GoM.get_apply]
  by_cases hlt : i > s.refs0.length
  · simp [hlt]
  · simp only [if_neg hlt]
    cases hr : s.refs0[i]? with
    | none => simp [goIndex, hr, GoM.bind_apply]
    | some r => cases r <;> simp [goIndex, hr, GoM.bind_apply, show ¬ ((i : Int) < 0) by omega]

/-- C23, the panic at a reference exactly: a decoder, whatever it was used for, panics if and only if the index is the number of
complex values so far; a greater one is an error, a smaller one a value. -/
theorem C23_amf0_reference_panics_iff (s : St) (i : Nat) (hi : i < 65536) (rest : Bytes) (hd : s.data = 7 :: be16 (UInt16.ofNat i) ++ rest) :
    ((Amf0.decode s).1 = .panic ↔ i = s.refs0.length) ∧ ((Amf0.decode s).1 = .err .other ↔ s.refs0.length < i) ∧
    ((∃ v, (Amf0.decode s).1 = .ok v) ↔ i < s.refs0.length) := by
  rw [decode_reference s i hi rest hd]
  rcases Nat.lt_trichotomy i s.refs0.length with h | h | h
  · rw [if_neg (by omega), List.getElem?_eq_getElem h]
    cases s.refs0[i] <;> simp <;> omega
  · rw [if_neg (by omega), List.getElem?_eq_none (by omega)]
    simp; omega
  · rw [if_pos h]
    simp; omega

example : (Amf0.decode (St.buffer [7, 0, 0, 1])).1 = .panic ∧ (Amf0.decode (St.buffer [7, 0, 1, 1])).1 = .err .other :=
  ⟨(C23_amf0_reference_panics_iff (St.buffer [7, 0, 0, 1]) 0 (by decide) [1] rfl).1.2 rfl,
    (C23_amf0_reference_panics_iff (St.buffer [7, 0, 1, 1]) 1 (by decide) [1] rfl).2.1.2 (by decide)⟩

/-- An entry of the reference table stays. -/
theorem entry_later {s1 s2 : St} (h2 : Later Amf0.decode s1 s2) {i : Nat} {r : Ref0} (e1 : s1.refs0[i]? = some r) :
    s2.refs0[i]? = some r ∧ i < s2.refs0.length := by
  have hl1 : i + 1 ≤ s1.refs0.length := (List.getElem?_eq_some_iff.mp e1).1
  have hsame := later_same0 (i + 1) h2 hl1
  refine ⟨?_, hsame.1⟩
  have := congrArg (fun l => l[i]?) hsame.2
  simpa [List.getElem?_take, e1] using this

/-- C25 fails for every strict array: at any later time a reference to it is decoded to an empty array. -/
theorem C25_amf0_strict_array_refuted (s : St) (data : Bytes) (vs : List Val) (s1 s2 : St) (rest : Bytes)
    (hd : s.data = 10 :: data) (h1 : Amf0.decode s = (.ok (.arr vs), s1)) (h2 : Later Amf0.decode s1 s2) (hn : s.refs0.length < 65536)
    (hd2 : s2.data = 7 :: be16 (UInt16.ofNat s.refs0.length) ++ rest) :
    ∃ s3, Amf0.decode s2 = (.ok (.arr []), s3) ∧ s3.data = rest := by
  have e1 : s1.refs0[s.refs0.length]? = some .nilArray := by
    unfold Amf0.decode at h1
    rw [dec_succ, GoM.bind_apply, Safe.readByte_cons hd] at h1
    simp only [branch] at h1
    simp only [show ((10 : UInt8) = 0) = False by decide, show ((10 : UInt8) = 1) = False by decide,
        show ((10 : UInt8) = 2) = False by decide, show ((10 : UInt8) = 3) = False by decide,
        show ((10 : UInt8) = 4) = False by decide, show ((10 : UInt8) = 5) = False by decide,
        show ((10 : UInt8) = 6) = False by decide, show ((10 : UInt8) = 13) = False by decide, false_or,
        show ((10 : UInt8) = 7) = False by decide, show ((10 : UInt8) = 8) = False by decide, if_false, if_true, GoM.bind_apply, Amf0.decodeStrictArray, Amf0.readU32] at h1
    rcases hf : readFull 4 { s with data := data } with ⟨r, s'⟩
    have hk : s'.refs0 = s.refs0 := by
      unfold readFull at hf
      split at hf
      · simp at hf; rw [← hf.2]
      · split at hf <;> (simp at hf; rw [← hf.2])
    rw [hf] at h1
    cases r with
    | ok b =>
      simp only [GoM.pure_apply, Amf0.pushRef] at h1
      have keep := keep_arrLoop (keep_dec (s.refs0.length + 1) s.data.length) (beNat b) [] { s' with refs0 := s'.refs0 ++ [.nilArray] }
        (by simp [hk])
      rcases ha : Amf0.arrLoop (Amf0.dec s.data.length) (beNat b) [] { s' with refs0 := s'.refs0 ++ [.nilArray] } with ⟨r, s''⟩
      rw [ha] at h1 keep
      cases r with
      | ok o =>
        simp at h1
        rw [← h1.2]
        have := congrArg (fun l => l[s.refs0.length]?) keep.2
        simpa [List.getElem?_take, hk] using this
      | _ => simp at h1
    | _ => simp at h1
  obtain ⟨e2, hl⟩ := entry_later h2 e1
  exact ⟨{ s2 with data := rest }, by rw [decode_reference s2 _ hn rest hd2, if_neg (by omega), e2], rfl⟩

/-- C25 fails for every typed object: at any later time a reference to it is decoded to a typed object without name and members. -/
theorem C25_amf0_typed_refuted (s : St) (data : Bytes) (t : Bytes) (kvs : List (Bytes × Val)) (s1 s2 : St) (rest : Bytes)
    (hd : s.data = 16 :: data) (h1 : Amf0.decode s = (.ok (.typed t kvs), s1)) (h2 : Later Amf0.decode s1 s2) (hn : s.refs0.length < 65536)
    (hd2 : s2.data = 7 :: be16 (UInt16.ofNat s.refs0.length) ++ rest) :
    ∃ s3, Amf0.decode s2 = (.ok (.typed [] []), s3) ∧ s3.data = rest := by
  have e1 : s1.refs0[s.refs0.length]? = some .zeroTyped := by
    have F := frame_same0 (s.refs0.length + 1)
    have G := F.toFrame
    have hk : Keep (Same0 (s.refs0.length + 1)) (Amf0.decodeString >>= fun t => Amf0.decodeObject (Amf0.dec s.data.length) s.data.length >>= fun o =>
        (pure (Val.typed t o) : GoM St Val)) :=
      (Amf0.keep_decodeString G).bind G fun _ => (Amf0.keep_decodeObject (keep_dec _ _) _).bind G fun _ => Keep.pure G _
    have hdec : Amf0.decode s = (Amf0.decodeString >>= fun t => Amf0.decodeObject (Amf0.dec s.data.length) s.data.length >>= fun o =>
        (pure (Val.typed t o) : GoM St Val)) { s with data := data, refs0 := s.refs0 ++ [.zeroTyped] } := by
      unfold Amf0.decode
      rw [dec_succ, GoM.bind_apply, Safe.readByte_cons hd]
      simp only [branch]
      simp only [show ((16 : UInt8) = 0) = False by decide, show ((16 : UInt8) = 1) = False by decide,
        show ((16 : UInt8) = 2) = False by decide, show ((16 : UInt8) = 3) = False by decide,
        show ((16 : UInt8) = 4) = False by decide, show ((16 : UInt8) = 5) = False by decide,
        show ((16 : UInt8) = 6) = False by decide, show ((16 : UInt8) = 13) = False by decide, false_or,
        show ((16 : UInt8) = 7) = False by decide, show ((16 : UInt8) = 8) = False by decide, show ((16 : UInt8) = 10) = False by decide,
        show ((16 : UInt8) = 11) = False by decide, show ((16 : UInt8) = 12) = False by decide, show ((16 : UInt8) = 14) = False by decide,
        show ((16 : UInt8) = 15) = False by decide, if_false, if_true, GoM.bind_apply, Amf0.decodeTypedObject, Amf0.pushRef]
      rcases Amf0.decodeString { s with data := data, refs0 := s.refs0 ++ [.zeroTyped] } with ⟨r, s'⟩
      cases r <;> simp
      rcases Amf0.decodeObject (Amf0.dec s.data.length) s.data.length s' with ⟨r, s''⟩
      cases r <;> simp
    have := hk { s with data := data, refs0 := s.refs0 ++ [.zeroTyped] } (by simp)
    rw [← hdec, h1] at this
    have := congrArg (fun l => l[s.refs0.length]?) this.2
    simpa [List.getElem?_take] using this
  obtain ⟨e2, hl⟩ := entry_later h2 e1
  exact ⟨{ s2 with data := rest }, by rw [decode_reference s2 _ hn rest hd2, if_neg (by omega), e2], rfl⟩

/-- A strict array of one member, and of a typed object, then (in another message) references to them. -/
example : ∃ s3, Amf0.decode { (Amf0.decode (St.buffer [10, 0, 0, 0, 1, 5])).2 with data := [7, 0, 0] } = (.ok (.arr []), s3) ∧ s3.data = [] :=
  C25_amf0_strict_array_refuted (St.buffer [10, 0, 0, 0, 1, 5]) [0, 0, 0, 1, 5] [.nil] (Amf0.decode (St.buffer [10, 0, 0, 0, 1, 5])).2
    { (Amf0.decode (St.buffer [10, 0, 0, 0, 1, 5])).2 with data := [7, 0, 0] } [] rfl (Prod.ext (by decide +kernel) rfl) (.refl _ _ _ _) (by simp [St.buffer]) rfl

example : ∃ s3, Amf0.decode { (Amf0.decode (St.buffer [16, 0, 1, 65, 0, 0, 9])).2 with data := [7, 0, 0] } = (.ok (.typed [] []), s3) ∧ s3.data = [] :=
  C25_amf0_typed_refuted (St.buffer [16, 0, 1, 65, 0, 0, 9]) [0, 1, 65, 0, 0, 9] [65] [] (Amf0.decode (St.buffer [16, 0, 1, 65, 0, 0, 9])).2
    { (Amf0.decode (St.buffer [16, 0, 1, 65, 0, 0, 9])).2 with data := [7, 0, 0] } [] rfl (Prod.ext (by decide +kernel) rfl) (.refl _ _ _ _) (by simp [St.buffer]) rfl

end Verif.Props
