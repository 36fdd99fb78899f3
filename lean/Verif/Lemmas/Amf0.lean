import Verif.Lemmas.Amf
import Verif.Spec.Amf0
/-! # Lemmas about the AMF0 codec -/
namespace Verif.Amf0
open Verif.Amf Verif.Spec.Amf0

/-! ## Encoder -/

theorem be16_length (v) : (be16 v).length = 2 := rfl
theorem be32_length (v) : (be32 v).length = 4 := rfl
theorem be64_length (v) : (be64 v).length = 8 := rfl

theorem emits_number (f : UInt64) : Emits (encodeNumber f) [[0], be64 f] (.ok 9) :=
  (Emits.writeByte 0).bind ((Emits.write _).map)

theorem emits_bool (b : Bool) : Emits (encodeBoolean b) [[1], [if b then 1 else 0]] (.ok 2) :=
  (Emits.writeByte 1).bind ((Emits.write _).map)

theorem emits_marker (m : UInt8) : Emits (encodeOnlyMarker m) [[m]] (.ok 1) :=
  (Emits.writeByte m).map

theorem emits_opt (m : UInt8) (b : Bool) :
    Emits (optMarker m b) (if b then [[m]] else []) (.ok (if b then 1 else 0)) := by
  cases b
  · exact Emits.pure 0
  · exact (Emits.writeByte m).map

theorem emits_string (s : Bytes) (b : Bool) :
    Emits (encodeString s b) ((if b then [[2]] else []) ++ [be16 (UInt16.ofNat s.length), s])
      (.ok ((if b then 1 else 0) + 2 + s.length % 65536)) := by
  have := (emits_opt 2 b).bind (f := fun n => do
    Sink.write (be16 (UInt16.ofNat s.length))
    Sink.write s
    pure (n + 2 + (UInt16.ofNat s.length).toNat)) ((Emits.write _).bind ((Emits.write _).map))
  unfold encodeString
  simpa [UInt16.toNat_ofNat'] using this

theorem emits_longString (s : Bytes) (b : Bool) :
    Emits (encodeLongString s b) ((if b then [[12]] else []) ++ [be32 (UInt32.ofNat s.length), s])
      (.ok ((if b then 1 else 0) + 4 + s.length)) := by
  have := (emits_opt 12 b).bind (f := fun n => do
    Sink.write (be32 (UInt32.ofNat s.length))
    Sink.write s
    pure (n + 4 + s.length)) ((Emits.write _).bind ((Emits.write _).map))
  unfold encodeLongString
  simpa using this

theorem emits_date (t : Int) :
    Emits (encodeDate t) [[11], [0], be64 (F64.mul1000 (F64.ofInt t)), [0, 0]] (.ok 12) :=
  (Emits.writeByte 11).bind ((emits_number _).bind ((Emits.write _).map))

theorem emits_bytes : (b : Bytes) → ∃ cs, cs.flatten = (b.flatMap fun x => number (F64.ofInt x.toNat)) ∧
    Emits (encBytes b) cs (.ok cs.flatten.length)
  | [] => ⟨[], rfl, Emits.pure 0⟩
  | x :: b => by
    obtain ⟨cs, h1, h2⟩ := emits_bytes b
    refine ⟨_, ?_, ((emits_number (F64.ofInt x.toNat)).bind (h2.map)).congr rfl ?_⟩
    · simp [h1, number]
    · simp [be64_length]; omega

theorem cnt_string (s : Bytes) (h : s.length ≤ 65535) (b : Bool) : Cnt 0 (encodeString s b) := by
  refine Cnt.of_emits (emits_string s b) ?_
  have : s.length % 65536 = s.length := Nat.mod_eq_of_lt (by omega)
  cases b <;> simp [be16_length, this] <;> omega

mutual
theorem cnt_enc : (v : Val) → ShortNames v → Cnt 0 (enc v)
  | .nil, _ => Cnt.of_emits (emits_marker 5) rfl
  | .bool b, _ => Cnt.of_emits (emits_bool b) rfl
  | .f64 f, _ => Cnt.of_emits (emits_number f) rfl
  | .int _ i, _ => Cnt.of_emits (emits_number _) rfl
  | .uint _ n, _ => Cnt.of_emits (emits_number _) rfl
  | .str s, _ => by
    by_cases h : s.length ≤ 65535
    · simp only [enc, h, if_true]
      exact cnt_string s h true
    · simp only [enc, h, if_false]
      refine Cnt.of_emits (emits_longString s true) ?_
      simp [be32_length]; omega
  | .arr xs, h => by
    simp only [ShortNames] at h
    exact Cnt.write (Cnt.write ((cnt_encL xs h).add fun n => Cnt.pure.congr (by simp [be32_length])))
  | .bytes b, _ => by
    obtain ⟨cs, _, hc⟩ := emits_bytes b
    exact Cnt.write (Cnt.write ((Cnt.of_emits hc (by simp)).add fun n => Cnt.pure.congr (by simp [be32_length])))
  | .obj kvs, h => by
    simp only [ShortNames] at h
    exact (Cnt.of_emits (emits_opt 3 true) rfl).add fun n => (cnt_encF kvs h).add fun m => Cnt.pure.congr (by simp)
  | .typed t kvs, h => by
    simp only [ShortNames] at h
    exact Cnt.write ((cnt_string t h.1 false).add fun n => (cnt_encF kvs h.2).add fun m => Cnt.pure.congr (by simp))
  | .time t, _ => Cnt.of_emits (emits_date t) rfl
  | .ecma _ _, _ => Cnt.fail _
  | .shared _, _ => Cnt.fail _
  | .other, _ => Cnt.fail _
theorem cnt_encL : (vs : List Val) → ShortNamesL vs → Cnt 0 (encL vs)
  | [], _ => Cnt.pure
  | v :: vs, h => by
    simp only [ShortNamesL] at h
    exact (cnt_enc v h.1).add fun n => (cnt_encL vs h.2).add fun m => Cnt.pure.congr (by simp)
theorem cnt_encF : (kvs : List (Bytes × Val)) → ShortNamesF kvs → Cnt 0 (encObj kvs)
  | [], _ => (cnt_string [] (by simp) false).add fun n => Cnt.write (Cnt.pure.congr (by simp))
  | (k, v) :: r, h => by
    simp only [ShortNamesF] at h
    exact (cnt_string k h.1 false).add fun n => (cnt_enc v h.2.1).add fun m =>
      (cnt_encF r h.2.2).add fun o => Cnt.pure.congr (by simp)
end

mutual
/-- Encoding an encodable value writes its AMF0 wire format. -/
theorem emits_wire : (v : Val) → Encodable v → ∃ cs, cs.flatten = wire v ∧ Emits (enc v) cs (.ok (wire v).length)
  | .nil, _ => ⟨_, rfl, emits_marker 5⟩
  | .bool b, _ => ⟨_, by simp [wire], emits_bool b⟩
  | .f64 f, _ => ⟨_, by simp [wire, number], (emits_number f)⟩
  | .int _ i, _ => ⟨_, by simp [wire, number], (emits_number _)⟩
  | .uint _ n, _ => ⟨_, by simp [wire, number], (emits_number _)⟩
  | .str s, _ => by
    by_cases h : s.length ≤ 65535
    · simp only [enc, h, if_true]
      refine ⟨_, ?_, (emits_string s true).congr rfl ?_⟩
      · simp [wire, Nat.lt_succ_of_le h, utf8]
      · simp [wire, Nat.lt_succ_of_le h, utf8, be16_length]; omega
    · simp only [enc, h, if_false]
      refine ⟨_, ?_, (emits_longString s true).congr rfl ?_⟩
      · simp [wire, show ¬ s.length < 65536 by omega, utf8Long]
      · simp [wire, show ¬ s.length < 65536 by omega, utf8Long, be32_length]; omega
  | .arr xs, h => by
    simp only [Encodable] at h
    obtain ⟨cs, h1, hc⟩ := emits_wireL xs h.2
    refine ⟨_, ?_, ((Emits.writeByte 10).bind ((Emits.write _).bind (hc.map))).congr rfl ?_⟩
    · simp [wire, h1]
    · simp [wire, be32_length]; omega
  | .bytes b, _ => by
    obtain ⟨cs, h1, hc⟩ := emits_bytes b
    refine ⟨_, ?_, ((Emits.writeByte 10).bind ((Emits.write _).bind (hc.map))).congr rfl ?_⟩
    · simp [wire, h1]
    · simp only [wire, ← h1]; simp [be32_length]; omega
  | .obj kvs, h => by
    simp only [Encodable] at h
    obtain ⟨cs, h1, hc⟩ := emits_wireF kvs h.2
    refine ⟨_, ?_, ((emits_opt 3 true).bind (hc.map)).congr rfl ?_⟩
    · simp [wire, h1]
    · simp [wire]; omega
  | .typed t kvs, h => by
    simp only [Encodable] at h
    obtain ⟨cs, h1, hc⟩ := emits_wireF kvs h.2.2
    refine ⟨_, ?_, ((Emits.writeByte 16).bind ((emits_string t false).bind (hc.map))).congr rfl ?_⟩
    · simp [wire, h1, utf8]
    · have : t.length % 65536 = t.length := Nat.mod_eq_of_lt (by omega)
      simp [wire, utf8, be16_length, this]; omega
  | .time t, h => by simp [Encodable] at h
  | .ecma _ _, h => by simp [Encodable] at h
  | .shared _, h => by simp [Encodable] at h
  | .other, h => by simp [Encodable] at h
theorem emits_wireL : (vs : List Val) → EncodableL vs →
    ∃ cs, cs.flatten = wireL vs ∧ Emits (encL vs) cs (.ok (wireL vs).length)
  | [], _ => ⟨_, rfl, Emits.pure 0⟩
  | v :: vs, h => by
    simp only [EncodableL] at h
    obtain ⟨cs, h1, hc⟩ := emits_wire v h.1
    obtain ⟨ds, h2, hd⟩ := emits_wireL vs h.2
    exact ⟨_, by simp [wireL, h1, h2], (hc.bind (hd.map)).congr rfl (by simp [wireL])⟩
theorem emits_wireF : (kvs : List (Bytes × Val)) → EncodableF kvs →
    ∃ cs, cs.flatten = wireF kvs ∧ Emits (encObj kvs) cs (.ok (wireF kvs).length)
  | [], _ => ⟨_, rfl, ((emits_string [] false).bind ((Emits.writeByte 9).map))⟩
  | (k, v) :: r, h => by
    simp only [EncodableF] at h
    obtain ⟨cs, h1, hc⟩ := emits_wire v h.2.1
    obtain ⟨ds, h2, hd⟩ := emits_wireF r h.2.2
    refine ⟨_, ?_, ((emits_string k false).bind (hc.bind (hd.map))).congr rfl ?_⟩
    · simp [wireF, h1, h2, utf8]
    · have : k.length % 65536 = k.length := Nat.mod_eq_of_lt (by omega)
      simp [wireF, utf8, be16_length, this]; omega
end

/-! ## Decoder: exact parsing -/

variable {rj : Bool}

/-- Everything `dec` does after reading the marker. -/
def branch (fuel : Nat) (marker : UInt8) : GoM St Val :=
    if marker = 0x00 then do
      let b ← readFull 8
      pure (.f64 (UInt64.ofNat (beNat b)))
    else if marker = 0x01 then do
      let flag ← readByte
      pure (.bool (flag == 1))
    else if marker = 0x02 then do
      let s ← decodeString
      pure (.str s)
    else if marker = 0x03 then do
      let o ← decodeObject (dec fuel) fuel
      pure (.obj o)
    else if marker = 0x04 then GoM.fail .other
    else if marker = 0x05 ∨ marker = 0x06 ∨ marker = 0x0d then pure .nil
    else if marker = 0x07 then decodeReference
    else if marker = 0x08 then do
      let o ← decodeEcmaArray (dec fuel) fuel
      pure (.obj o)
    else if marker = 0x0a then do
      let a ← decodeStrictArray (dec fuel)
      pure (.arr a)
    else if marker = 0x0b then do
      let f ← decodeDate
      pure (.f64 f)
    else if marker = 0x0c then do
      let s ← decodeLongString
      pure (.str s)
    else if marker = 0x0e then GoM.fail .other
    else if marker = 0x0f then do
      let s ← decodeLongString
      pure (.str s)
    else if marker = 0x10 then do
      let (t, o) ← decodeTypedObject (dec fuel) fuel
      pure (.typed t o)
    else if marker = 0x11 then Amf3.decode noHandlers
    else GoM.fail .other

theorem dec_succ (fuel : Nat) : dec (fuel + 1) = readByte >>= branch fuel := rfl

theorem codec_number (f : UInt64) : Codec rj false (readFull 8 >>= fun b => pure (Val.f64 (UInt64.ofNat (beNat b)))) (be64 f) (.f64 f) := by
  have := (Codec.readFull (r := rj) (be64 f) (be64_length f) (by omega)).map (fun b => Val.f64 (UInt64.ofNat (beNat b)))
  rwa [beNat_be64] at this

theorem codec_string (s : Bytes) (h : s.length ≤ 65535) : Codec rj s.isEmpty decodeString (utf8 s) s := by
  refine Codec.bind_f (x := s.length) ?_ (Codec.readBytes s)
  have := (Codec.readFull (r := rj) (be16 (UInt16.ofNat s.length)) (be16_length _) (by omega)).map beNat
  rw [beNat_be16 _ (by omega)] at this
  exact this

theorem codec_u32 (n : Nat) (h : n < 2 ^ 32) : Codec rj false readU32 (be32 (UInt32.ofNat n)) n := by
  have := (Codec.readFull (r := rj) (be32 (UInt32.ofNat n)) (be32_length _) (by omega)).map beNat
  rw [beNat_be32 _ h] at this
  exact this

theorem codec_longString (s : Bytes) (h : s.length < 2 ^ 32) : Codec rj s.isEmpty decodeLongString (utf8Long s) s :=
  Codec.bind_f (codec_u32 _ h) (Codec.readBytes s)

theorem codec_pushRef {α} {b : Bool} {f : Nat → GoM St α} {c y} (v : Ref0) (h : ∀ id, Codec rj b (f id) c y) :
    Codec rj b (pushRef v >>= f) c y where
  parse s rest hs hd hr := by
    obtain ⟨s', h1, h2, h3, h4⟩ := (h s.refs0.length).parse { s with refs0 := s.refs0 ++ [v] } rest hs hd hr
    exact ⟨s', h1, h2, h3, h4⟩
  reject hr s p q hs hd ha hq := by
    obtain ⟨e, s', h1⟩ := (h s.refs0.length).reject hr { s with refs0 := s.refs0 ++ [v] } p q hs hd ha hq
    exact ⟨e, s', h1⟩
  frag hr s rest hd := by
    rcases (h s.refs0.length).frag hr { s with refs0 := s.refs0 ++ [v] } rest hd with ⟨e, s', h1⟩ | ⟨s', h1, h2, h3, h4⟩
    · exact .inl ⟨e, s', h1⟩
    · exact .inr ⟨s', h1, h2, h3, h4⟩

/-- The members of a list assigned one after the other. -/
def setAll (acc l : List (Bytes × Val)) : List (Bytes × Val) := l.foldl (fun m e => mapSet m e.1 e.2) acc

theorem mapSet_fresh (m : List (Bytes × Val)) (k v) (h : k ∉ m.map Prod.fst) : mapSet m k v = m ++ [(k, v)] := by
  unfold mapSet
  rw [if_neg]
  simp only [List.mem_map, not_exists, not_and] at h
  simp only [List.any_eq_true, not_exists, not_and]
  intro e he hk
  exact h e he (by simpa using hk)

theorem wireF_ne (kvs) : wireF kvs ≠ [] := by
  rcases kvs with _ | ⟨⟨k, v⟩, r⟩ <;> simp [wireF, utf8, be16]

theorem wire_ne (v : Val) (h : Encodable v) : wire v ≠ [] := by
  cases v <;> simp [wire, number, Encodable] at h ⊢
  split <;> simp

theorem wireL_ne (v : Val) (vs : List Val) (h : Encodable v) : wireL (v :: vs) ≠ [] := by
  simp [wireL, wire_ne v h]

theorem codec_bytes (n : Nat) (b : Bytes) (hn : n ≠ 0) (acc : List Val) :
    Codec rj false (arrLoop (dec n) b.length acc) (b.flatMap fun x => number (F64.ofInt x.toNat))
      (acc ++ b.map fun x => .f64 (F64.ofInt x.toNat)) := by
  induction b generalizing acc with
  | nil => simpa [arrLoop] using Codec.pure acc
  | cons x b ih =>
    obtain ⟨m, rfl⟩ := Nat.exists_eq_succ_of_ne_zero hn
    have h1 : Codec rj false (dec (m + 1)) (number (F64.ofInt x.toNat)) (.f64 (F64.ofInt x.toNat)) := by
      rw [dec_succ]
      exact Codec.bind_f (a := [0]) (Codec.readByte 0) (codec_number _)
    have := Codec.bind_f (f := fun v => arrLoop (dec (m + 1)) b.length (acc ++ [v])) h1 (ih _)
    simpa [arrLoop] using this

mutual
theorem codec_wire : (v : Val) → Encodable v → (fuel : Nat) → (wire v).length < fuel →
    Codec rj (endsEmpty v) (dec fuel) (wire v) (numbers v)
  | _, _, 0, hf => absurd hf (Nat.not_lt_zero _)
  | .nil, _, fuel + 1, _ => by
    rw [dec_succ]; exact Codec.bind_f (a := [5]) (Codec.readByte 5) (Codec.pure _)
  | .bool b, _, fuel + 1, _ => by
    rw [dec_succ]
    refine Codec.bind_f (a := [1]) (Codec.readByte 1) ?_
    have := (Codec.readByte (r := rj) (if b then 1 else 0)).map (fun flag => Val.bool (flag == 1))
    cases b <;> exact this
  | .f64 f, _, fuel + 1, _ => by
    rw [dec_succ]; exact Codec.bind_f (a := [0]) (Codec.readByte 0) (codec_number _)
  | .int _ i, _, fuel + 1, _ => by
    rw [dec_succ]; exact Codec.bind_f (a := [0]) (Codec.readByte 0) (codec_number _)
  | .uint _ i, _, fuel + 1, _ => by
    rw [dec_succ]; exact Codec.bind_f (a := [0]) (Codec.readByte 0) (codec_number _)
  | .str s, h, fuel + 1, _ => by
    rw [dec_succ]
    by_cases hl : s.length < 65536
    · simp only [wire, hl, if_true, endsEmpty, numbers]
      exact Codec.bind_f (a := [2]) (Codec.readByte 2) ((codec_string s (by omega)).map Val.str)
    · simp only [wire, hl, if_false, endsEmpty, numbers]
      exact Codec.bind_f (a := [12]) (Codec.readByte 12) ((codec_longString s (by simpa [Encodable] using h)).map Val.str)
  | .arr xs, h, fuel + 1, hf => by
    rw [dec_succ]
    simp only [Encodable] at h
    simp only [wire, endsEmpty, numbers] at hf ⊢
    simp [be32_length] at hf
    refine Codec.bind_f (a := [10]) (Codec.readByte 10) (Codec.map (f := Val.arr) (x := numbersL xs) ?_)
    refine Codec.bind_f (codec_u32 _ h.1) (codec_pushRef _ fun _ => ?_)
    simpa using codec_wireL xs h.2 fuel (by omega) []
  | .bytes b, h, fuel + 1, hf => by
    rw [dec_succ]
    simp only [Encodable] at h
    simp only [wire, endsEmpty, numbers] at hf ⊢
    simp [be32_length] at hf
    refine Codec.bind_f (a := [10]) (Codec.readByte 10)
      (Codec.map (f := Val.arr) (x := b.map fun x => .f64 (F64.ofInt x.toNat)) ?_)
    refine Codec.bind_f (codec_u32 _ h) (codec_pushRef _ fun _ => ?_)
    simpa using codec_bytes fuel b (by omega) []
  | .obj kvs, h, fuel + 1, hf => by
    rw [dec_succ]
    simp only [Encodable] at h
    simp only [wire, endsEmpty, numbers] at hf ⊢
    simp at hf
    refine Codec.bind_f (a := [3]) (Codec.readByte 3) (Codec.map (f := Val.obj) (x := numbersF kvs) ?_)
    refine codec_pushRef _ fun id => ?_
    simpa using codec_wireF kvs h.2 fuel fuel (by omega) (by omega) id [] (by simpa using h.1)
  | .typed t kvs, h, fuel + 1, hf => by
    rw [dec_succ]
    simp only [Encodable] at h
    simp only [wire, endsEmpty, numbers] at hf ⊢
    simp at hf
    refine Codec.bind_f (a := [16]) (Codec.readByte 16)
      (Codec.map (f := fun p : Bytes × List (Bytes × Val) => Val.typed p.1 p.2) (x := (t, numbersF kvs)) ?_)
    refine codec_pushRef _ fun _ => ?_
    refine Codec.bind_ne (codec_string t h.1)
      (Codec.map (f := fun o => (t, o)) (x := numbersF kvs) (codec_pushRef _ fun id => ?_)) (wireF_ne kvs)
    simpa using codec_wireF kvs h.2.2 fuel fuel (by omega) (by omega) id [] (by simpa using h.2.1)
  | .time t, h, _, _ => by simp [Encodable] at h
  | .ecma _ _, h, _, _ => by simp [Encodable] at h
  | .shared _, h, _, _ => by simp [Encodable] at h
  | .other, h, _, _ => by simp [Encodable] at h
theorem codec_wireL : (vs : List Val) → EncodableL vs → (n : Nat) → (wireL vs).length < n → (acc : List Val) →
    Codec rj (endsEmptyL vs) (arrLoop (dec n) vs.length acc) (wireL vs) (acc ++ numbersL vs)
  | [], _, n, _, acc => by simpa [wireL, numbersL, endsEmptyL, arrLoop] using Codec.pure acc
  | v :: vs, h, n, hn, acc => by
    simp only [EncodableL] at h
    simp only [wireL, List.length_append] at hn
    have h1 := codec_wire v h.1 n (by omega)
    have h2 := codec_wireL vs h.2 n (by omega) (acc ++ [numbers v])
    have := Codec.bind (f := fun x => arrLoop (dec n) vs.length (acc ++ [x])) (b := endsEmptyL (v :: vs)) h1 h2 (by
      cases vs with
      | nil => simp [endsEmptyL, wireL]
      | cons w ws => simp [endsEmptyL, wireL_ne w ws (by simp only [EncodableL] at h; exact h.2.1)])
    simpa [wireL, numbersL, arrLoop] using this
theorem codec_wireF : (kvs : List (Bytes × Val)) → EncodableF kvs → (n fuel : Nat) → (wireF kvs).length < n →
    (wireF kvs).length < fuel → (id : Nat) → (acc : List (Bytes × Val)) →
    (acc.map Prod.fst ++ kvs.map Prod.fst).Nodup →
    Codec rj false (objLoop (dec n) id fuel acc) (wireF kvs) (acc ++ numbersF kvs)
  | _, _, _, 0, _, hf, _, _, _ => absurd hf (Nat.not_lt_zero _)
  | [], _, n, fuel + 1, _, _, id, acc, _ => by
    have := Codec.bind_ne (f := fun key => if key = [] then do
        nextByteMustBe 0x09
        pure acc
      else do
        let v ← dec n
        let acc := mapSet acc key v
        setRef id acc
        objLoop (dec n) id fuel acc) (codec_string (rj := rj) [] (by simp)) (c := [9]) (y := acc)
      (by simpa using (Codec.nextByteMustBe 9).map (fun _ => acc)) (by simp)
    simpa [wireF, numbersF, objLoop, utf8, be16] using this
  | (k, v) :: r, h, n, fuel + 1, hn, hf, id, acc, hnd => by
    simp only [EncodableF] at h
    simp only [wireF, List.length_append] at hn hf
    have hkne : k ≠ [] := fun e => by simp [e] at h
    have hfresh : k ∉ acc.map Prod.fst := by
      intro hm
      exact (List.nodup_append.mp hnd).2.2 k hm k (by simp) rfl
    have hkl : 2 ≤ (utf8 k).length := by simp [utf8, be16_length]
    have h1 := codec_wire v h.2.1 n (by omega)
    have h2 := codec_wireF r h.2.2 n fuel (by omega) (by omega) id (acc ++ [(k, numbers v)])
      (by simpa using hnd)
    have h3 : Codec rj false (setRef id (acc ++ [(k, numbers v)])) [] () :=
      Codec.modify _ (fun s => ⟨rfl, rfl, rfl⟩)
    have h4 := Codec.bind_ne (f := fun v => do
        let acc := mapSet acc k v
        setRef id acc
        objLoop (dec n) id fuel acc) h1 (c := wireF r) (y := acc ++ [(k, numbers v)] ++ numbersF r) (by
          simp only [mapSet_fresh acc k _ hfresh]
          exact Codec.bind_f (a := []) h3 h2) (wireF_ne r)
    have := Codec.bind_ne (f := fun key => if key = [] then do
        nextByteMustBe 0x09
        pure acc
      else do
        let v ← dec n
        let acc := mapSet acc key v
        setRef id acc
        objLoop (dec n) id fuel acc) (codec_string k h.1.2) (by simpa [hkne] using h4)
        (by simp [wireF_ne])
    simpa [wireF, numbersF, objLoop] using this
end

/-! ## Decoder: fuel -/

theorem objLoop_le {d d' : GoM St Val} (h : GoM.Le d d') (id : Nat) {n n' : Nat} (hn : n ≤ n') (acc) :
    GoM.Le (objLoop d id n acc) (objLoop d' id n' acc) := by
  induction n generalizing acc n' with
  | zero => exact GoM.Le.diverge _
  | succ n ih =>
    obtain ⟨m, rfl⟩ : ∃ m, n' = m + 1 := ⟨n' - 1, by omega⟩
    simp only [objLoop]
    refine GoM.Le.bind_right _ fun key => ?_
    split
    · exact GoM.Le.rfl' _
    · exact GoM.Le.bind h fun v => GoM.Le.bind_right _ fun _ => ih (by omega) _

theorem arrLoop_le {d d' : GoM St Val} (h : GoM.Le d d') (n : Nat) (acc) :
    GoM.Le (arrLoop d n acc) (arrLoop d' n acc) := by
  induction n generalizing acc with
  | zero => exact GoM.Le.rfl' _
  | succ n ih => exact GoM.Le.bind h fun v => ih _

theorem dec_le {n n' : Nat} (hn : n ≤ n') : GoM.Le (dec n) (dec n') := by
  induction n generalizing n' with
  | zero => exact GoM.Le.diverge _
  | succ n ih =>
    obtain ⟨m, rfl⟩ : ∃ m, n' = m + 1 := ⟨n' - 1, by omega⟩
    have hm : n ≤ m := by omega
    rw [dec_succ, dec_succ]
    refine GoM.Le.bind_right _ fun marker => ?_
    unfold branch decodeObject decodeEcmaArray decodeStrictArray decodeTypedObject decodeObject
    have ho : ∀ id, GoM.Le (objLoop (dec n) id n []) (objLoop (dec m) id m []) := fun id => objLoop_le (ih hm) id hm _
    have hot : ∀ t : Bytes, GoM.Le
        ((do let id ← pushRef (.object []); objLoop (dec n) id n []) >>= fun o => pure (t, o))
        ((do let id ← pushRef (.object []); objLoop (dec m) id m []) >>= fun o => pure (t, o)) :=
      fun t => GoM.Le.bind (GoM.Le.bind_right _ fun id => ho id) fun _ => GoM.Le.rfl' _
    repeat' refine GoM.Le.ite ?_ ?_
    all_goals first
      | exact GoM.Le.rfl' _
      | exact GoM.Le.bind (GoM.Le.bind_right _ fun id => ho id) fun _ => GoM.Le.rfl' _
      | exact GoM.Le.bind (GoM.Le.bind_right _ fun _ => GoM.Le.bind_right _ fun id => ho id) fun _ => GoM.Le.rfl' _
      | exact GoM.Le.bind (GoM.Le.bind_right _ fun _ => GoM.Le.bind_right _ fun _ => arrLoop_le (ih hm) _ _) fun _ => GoM.Le.rfl' _
      | exact GoM.Le.bind (GoM.Le.bind_right _ fun _ => GoM.Le.bind_right _ fun t => hot t) fun _ => GoM.Le.rfl' _

end Verif.Amf0
