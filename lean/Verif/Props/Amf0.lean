import Verif.Lemmas.AmfFrame
import Verif.Lemmas.Float64
import Verif.Spec.AmfHistory
/-!
# Properties C17–C28: AMF0 and the metadata header

The wire format and the value classes are specified in `Verif/Spec/Amf0.lean`, decoder histories in
`Verif/Spec/AmfHistory.lean`, the meaning of float64 patterns in `Verif/Spec/Float64.lean`.
-/
namespace Verif.Props
open Verif Verif.Amf Verif.Spec.Amf

section Amf0
open Verif.Amf0 Verif.Spec.Amf0

/-- What a `bytes.Buffer` contains after `Encode(&buf, v)`. -/
def amf0Bytes (v : Val) : Bytes := (Amf0.encode v Sink.mem).2.out
/-- What a `bytes.Buffer` contains after `EncodeBatch(&buf, vs...)`. -/
def amf0Batch (vs : List Val) : Bytes := (Amf0.encodeBatch vs Sink.mem).2.out

theorem amf0Bytes_wire (v : Val) (h : Encodable v) : amf0Bytes v = wire v := by
  obtain ⟨cs, h1, h2⟩ := emits_wire v h
  exact h2.mem.2.trans h1

theorem amf0Batch_wire (vs : List Val) (h : ∀ v ∈ vs, Encodable v) : amf0Batch vs = vs.flatMap wire := by
  obtain ⟨cs, h1, h2⟩ := Amf0.emits_batch vs h
  exact h2.mem.2.trans h1

attribute [irreducible] amf0Bytes amf0Batch

theorem later_traitsOk {s t : St} (h : Later Amf0.decode s t) (hs : TraitsOk s) : TraitsOk t := by
  induction h with
  | refl => exact hs
  | step _ _ _ _ ih => exact (Amf0.safe_decode (N := _) _ (Nat.le_refl _) ih).2.2.2.2

theorem reached_traitsOk {s : St} (h : Reached Amf0.decode s) : TraitsOk s := by
  obtain ⟨d, e, l, h⟩ := h
  exact later_traitsOk h (by simp [TraitsOk, fresh])

/-! ## Sample values -/

/-- {"a": [1.5, nil, "x"], "bc": typed "T" {"k": true}, "d": ""} -/
def sampleVal : Val :=
  .obj [([97], .arr [.f64 0x3ff8000000000000, .nil, .str [120]]), ([98, 99], .typed [84] [([107], .bool true)]), ([100], .str [])]

theorem sampleVal_ok : Encodable sampleVal ∧ Plain sampleVal := by
  simp [sampleVal, Encodable, EncodableF, EncodableL, Plain, PlainF, PlainL]

/-! ## C17 -/

/-- C17: encoding succeeds, and decoding what was encoded (followed by anything) gives the value back and
stops exactly at its end, whatever the decoder was used for before.  The reader may be any that returns as
much as it has; on a `bytes.Reader` (`eofOnEmpty`) an encoding that ends in an empty string must not be the
end of the data (see C19). -/
theorem C17_amf0_round_trip (v : Val) (he : Encodable v) (hp : Plain v) (s : St) (rest : Bytes) (hc : s.Contig)
    (hd : s.data = amf0Bytes v ++ rest) (hr : s.eofOnEmpty = true → endsEmpty v = true → rest ≠ []) :
    (Amf0.encode v Sink.mem).1 = .ok (amf0Bytes v).length ∧
    ∃ s', Amf0.decode s = (.ok v, s') ∧ s'.data = rest := by
  obtain ⟨cs, h1, h2⟩ := emits_wire v he
  rw [amf0Bytes_wire v he] at hd ⊢
  obtain ⟨s', h3, h4, _⟩ := Amf0.valCodec.parse v he s rest hc hd (fun a b => hr b a)
  rw [numbers_plain v hp] at h3
  exact ⟨h2.mem.1, s', h3, h4⟩

/-- C17 on a `bytes.Buffer`, without side condition. -/
theorem C17_amf0_round_trip_buffer (v : Val) (he : Encodable v) (hp : Plain v) (rest : Bytes) :
    ∃ s', Amf0.decode (St.buffer (amf0Bytes v ++ rest)) = (.ok v, s') ∧ s'.data = rest :=
  (C17_amf0_round_trip v he hp _ rest (fun _ => Nat.le_refl _) rfl (by simp [St.buffer])).2

/-- C17 for values that also contain integers and byte slices: they come back as the nearest float64
numbers. -/
theorem C17_amf0_round_trip_numbers (v : Val) (he : Encodable v) (s : St) (rest : Bytes) (hc : s.Contig)
    (hd : s.data = amf0Bytes v ++ rest) (hr : s.eofOnEmpty = true → endsEmpty v = true → rest ≠ []) :
    ∃ s', Amf0.decode s = (.ok (numbers v), s') ∧ s'.data = rest := by
  rw [amf0Bytes_wire v he] at hd
  obtain ⟨s', h3, h4, _⟩ := Amf0.valCodec.parse v he s rest hc hd (fun a b => hr b a)
  exact ⟨s', h3, h4⟩

example : ∃ s', Amf0.decode (St.buffer (amf0Bytes sampleVal ++ [1, 2])) = (.ok sampleVal, s') ∧ s'.data = [1, 2] :=
  C17_amf0_round_trip_buffer sampleVal sampleVal_ok.1 sampleVal_ok.2 [1, 2]

/-! ## C18 -/

/-- C18: a batch read from a `bytes.Buffer` comes back complete, with no error. -/
theorem C18_amf0_batch (vs : List Val) (h : ∀ v ∈ vs, Encodable v ∧ Plain v) :
    (Amf0.encodeBatch vs Sink.mem).1 = .ok () ∧
    ∃ s', Amf0.decodeBatch (St.buffer (amf0Batch vs)) = (.ok (vs, none), s') := by
  have he : ∀ v ∈ vs, Encodable v := fun v hv => (h v hv).1
  obtain ⟨cs, h1, h2⟩ := Amf0.emits_batch vs he
  refine ⟨h2.mem.1, ?_⟩
  have hlen : ∀ ws : List Val, (∀ v ∈ ws, Encodable v) → ws.length ≤ (ws.flatMap wire).length := by
    intro ws hw
    induction ws with
    | nil => simp
    | cons w ws ih =>
      have := List.length_pos_iff.mpr (Amf0.wire_ne' w (hw w (by simp)))
      have := ih (fun v hv => hw v (by simp [hv]))
      simp only [List.flatMap_cons, List.length_append, List.length_cons]; omega
  have hb := amf0Batch_wire vs he
  obtain ⟨s', h3⟩ := Amf0.valCodec.batch vs he ((amf0Batch vs).length + 1) (by rw [hb]; have := hlen vs he; omega) []
    (St.buffer (amf0Batch vs)) (fun _ => Nat.le_refl _) hb (by simp [St.buffer])
  refine ⟨s', ?_⟩
  have hm : vs.map numbers = vs := by
    exact (List.map_congr_left fun v hv => numbers_plain v (h v hv).2).trans (List.map_id vs)
  rw [hm] at h3
  exact h3

example : ∃ s', Amf0.decodeBatch (St.buffer (amf0Batch [sampleVal, .nil, .str []])) =
    (.ok ([sampleVal, .nil, .str []], none), s') :=
  (C18_amf0_batch [sampleVal, .nil, .str []]
    (by simp [sampleVal_ok.1, sampleVal_ok.2, Encodable, Plain])).2

/-! ## C19 -/

/-- C19 (partial): on every reader that returns as much as it has, in particular `bytes.Reader`, a batch comes
back complete provided its last value does not end in an empty string.  Missing: batches that do
(`C19_amf0_batch_reader_refuted`). -/
theorem C19_amf0_batch_reader_partial (vs : List Val) (h : ∀ v ∈ vs, Encodable v ∧ Plain v)
    (hl : ∀ v, vs.getLast? = some v → endsEmpty v = false) (s : St) (hc : s.Contig) (hd : s.data = amf0Batch vs) :
    ∃ s', Amf0.decodeBatch s = (.ok (vs, none), s') := by
  have he : ∀ v ∈ vs, Encodable v := fun v hv => (h v hv).1
  have hb := amf0Batch_wire vs he
  have hlen : ∀ ws : List Val, (∀ v ∈ ws, Encodable v) → ws.length ≤ (ws.flatMap wire).length := by
    intro ws hw
    induction ws with
    | nil => simp
    | cons w ws ih =>
      have := List.length_pos_iff.mpr (Amf0.wire_ne' w (hw w (by simp)))
      have := ih (fun v hv => hw v (by simp [hv]))
      simp only [List.flatMap_cons, List.length_append, List.length_cons]; omega
  obtain ⟨s', h3⟩ := Amf0.valCodec.batch vs he (s.data.length + 1) (by rw [hd, hb]; have := hlen vs he; omega) []
    s hc (hd.trans hb) (fun _ => hl)
  refine ⟨s', ?_⟩
  have hm : vs.map numbers = vs := by
    exact (List.map_congr_left fun v hv => numbers_plain v (h v hv).2).trans (List.map_id vs)
  rw [hm] at h3
  exact h3

example : ∃ s', Amf0.decodeBatch (St.reader (amf0Batch [.str [], sampleVal])) = (.ok ([.str [], sampleVal], none), s') :=
  C19_amf0_batch_reader_partial [.str [], sampleVal]
    (by simp [sampleVal_ok.1, sampleVal_ok.2, Encodable, Plain]) (by simp [sampleVal, endsEmpty]) (St.reader (amf0Batch [.str [], sampleVal]))
    (fun _ => Nat.le_refl _) rfl

/-- C19 fails: a batch holding just the empty string is read from a `bytes.Reader` as the empty batch,
without an error. -/
theorem C19_amf0_batch_reader_refuted :
    amf0Batch [.str []] = [2, 0, 0] ∧ (Amf0.decodeBatch (St.reader (amf0Batch [.str []]))).1 = .ok ([], none) := by
  decide +kernel

/-! ## C20 -/

/-- C20 (partial): when `Encode` succeeds on a writer that does not fail, its count is the number of bytes
appended, provided no object key and no type name is longer than 65535 bytes.  Missing: longer names
(`C20_amf0_count_refuted`). -/
theorem C20_amf0_count_partial (v : Val) (h : ShortNames v) (w : Sink) (hw : w.Reliable) (n : Nat)
    (hn : (Amf0.encode v w).1 = .ok n) : (Amf0.encode v w).2.out.length = w.out.length + n := by
  have := (Amf0.cnt_enc v h).result w hw n hn
  unfold Amf0.encode at *
  omega

example : (Amf0.encode sampleVal Sink.mem).2.out.length = Sink.mem.out.length + 48 :=
  C20_amf0_count_partial sampleVal (by simp [sampleVal, ShortNames, ShortNamesF, ShortNamesL]) Sink.mem
    Sink.mem_reliable 48 (by decide +kernel)

/-- C20 fails: for every type name of 65536 bytes or more the reported count is too small. -/
theorem C20_amf0_count_refuted (t : Bytes) (ht : 65536 ≤ t.length) :
    ∃ n, (Amf0.encode (.typed t []) Sink.mem).1 = .ok n ∧ n < (Amf0.encode (.typed t []) Sink.mem).2.out.length := by
  have h : Emits (Amf0.encode (.typed t [])) _ _ :=
    (Emits.writeByte 0x10).bind ((emits_string t false).bind (((emits_string [] false).bind ((Emits.writeByte 9).map)).map))
  refine ⟨_, h.mem.1, ?_⟩
  rw [h.mem.2]
  have := Nat.mod_lt t.length (show 0 < 65536 by omega)
  simp [be16_length]
  omega

example : ∃ t : Bytes, 65536 ≤ t.length := ⟨List.replicate 65536 0, Nat.le_of_eq List.length_replicate.symm⟩

/-! ## C21 -/

/-- C21: decoding a proper prefix of an encoding is an error, whatever the decoder was used for before. -/
theorem C21_amf0_truncated (v : Val) (he : Encodable v) (s : St) (hs : Reached Amf0.decode s) (hc : s.Contig)
    (q : Bytes) (hq : q ≠ []) (hd : amf0Bytes v = s.data ++ q) :
    ∃ e s', Amf0.decode s = (.err e, s') :=
  Amf0.decode_rejects v he s q hc (reached_traitsOk hs) (by rw [← amf0Bytes_wire v he]; exact hd) (.inl hq)

example : ∃ e s', Amf0.decode (St.reader ((amf0Bytes sampleVal).take 30)) = (.err e, s') :=
  C21_amf0_truncated sampleVal sampleVal_ok.1 _ ⟨_, _, _, .refl (fresh [] true id) _ _ _⟩ (fun _ => Nat.le_refl _)
    ((amf0Bytes sampleVal).drop 30) (by decide +kernel) (by simp [St.reader])

/-! ## C22 -/

/-- C22 (partial): given the first bytes of an encoded batch, `DecodeBatch` returns exactly the values that
are completely present, never a damaged or invented one.  Missing: that a cut inside a value is always
reported (`C22_amf0_batch_truncated_refuted`). -/
theorem C22_amf0_batch_truncated_partial (vs : List Val) (h : ∀ v ∈ vs, Encodable v ∧ Plain v) (p q : Bytes)
    (hd : amf0Batch vs = p ++ q) :
    ∃ k e s', Amf0.decodeBatch (St.buffer p) = (.ok (vs.take k, e), s') ∧ k ≤ vs.length ∧
      (amf0Batch (vs.take k)).length ≤ p.length ∧ (k < vs.length → p.length < (amf0Batch (vs.take (k + 1))).length) := by
  have he : ∀ v ∈ vs, Encodable v := fun v hv => (h v hv).1
  have htake : ∀ k, ∀ v ∈ vs.take k, Encodable v := fun k v hv => he v (List.mem_of_mem_take hv)
  rw [amf0Batch_wire vs he] at hd
  obtain ⟨k, e, s', h1, h2, h3, h4⟩ := Amf0.valCodec.batch_trunc
    (fun v hv s q hs _ ht hq hw => Amf0.decode_rejects v hv s q hs ht hw (.inl hq))
    Amf0.decode_traitsOk vs he (p.length + 1) [] (St.buffer p) (fun _ => Nat.le_refl _) rfl (by simp [TraitsOk, St.buffer])
    q (by simp [St.buffer]) (by simpa [St.buffer] using hd)
  refine ⟨k, e, s', ?_, h2, ?_, ?_⟩
  · have hm : (vs.take k).map numbers = vs.take k := by
      exact (List.map_congr_left fun v hv => numbers_plain v (h v (List.mem_of_mem_take hv)).2).trans (List.map_id _)
    rw [hm] at h1
    exact h1
  · rw [amf0Batch_wire _ (htake k)]; exact h3
  · rw [amf0Batch_wire _ (htake (k + 1))]; exact h4

example : ∃ k e s', Amf0.decodeBatch (St.buffer [5, 1, 1, 2, 0]) = (.ok ([.nil, .bool true, .str [97]].take k, e), s') := by
  obtain ⟨k, e, s', h, _⟩ := C22_amf0_batch_truncated_partial [.nil, .bool true, .str [97]] (by simp [Encodable, Plain])
    [5, 1, 1, 2, 0] [1, 97] (by decide +kernel)
  exact ⟨k, e, s', h⟩

/-- C22 fails: the input `05 02` ends inside a string, but the batch is reported complete. -/
theorem C22_amf0_batch_truncated_refuted :
    [5, 2] = (amf0Batch [.nil, .str [97]]).take 2 ∧
    (Amf0.decodeBatch (St.buffer [5, 2])).1 = .ok ([.nil], none) := by decide +kernel

/-! ## C23 -/

/-- C23, termination: decoding any data after any history ends, with fuel `length + 1`. -/
theorem C23_terminates (s : St) (hs : Reached Amf0.decode s) : (Amf0.decode s).1 ≠ .diverge :=
  (Amf0.safe_decode s (Nat.le_refl _) (reached_traitsOk hs)).1

/-- C23 (partial): data that does not contain the byte 7 followed by two more bytes is decoded to a value or
an error, never a panic, after any history.  Missing: data that does (`C23_amf0_total_refuted`). -/
theorem C23_amf0_total_partial (s : St) (hs : Reached Amf0.decode s) (hr : ∀ a b, ¬ [7, a, b] <:+: s.data) :
    (∃ v, (Amf0.decode s).1 = .ok v) ∨ ∃ e, (Amf0.decode s).1 = .err e := by
  have h := Amf0.safe_decode s (Nat.le_refl _) (reached_traitsOk hs)
  rcases hm : (Amf0.decode s).1 with v | e | _ | _
  · exact .inl ⟨v, rfl⟩
  · exact .inr ⟨e, rfl⟩
  · obtain ⟨_, a, b, hab⟩ := h.2.1 hm
    exact absurd hab (hr a b)
  · exact absurd hm h.1

/-- C23 for `DecodeBatch`. -/
theorem C23_amf0_batch_total_partial (s : St) (hs : Reached Amf0.decode s) (hr : ∀ a b, ¬ [7, a, b] <:+: s.data) :
    ∃ vs e, (Amf0.decodeBatch s).1 = .ok (vs, e) := by
  obtain ⟨h1, h2, h3⟩ := batch_terminates (d := Amf0.decode) (pan := true) (fun N => Amf0.safe_decode) (s.data.length + 1) [] s
    (reached_traitsOk hs) (by omega)
  show ∃ vs e, (Amf3.batchLoop Amf0.decode (s.data.length + 1) [] s).1 = _
  rcases hm : (Amf3.batchLoop Amf0.decode (s.data.length + 1) [] s).1 with ⟨vs, e⟩ | e | _ | _
  · exact ⟨vs, e, rfl⟩
  · exact absurd hm (h3 e)
  · obtain ⟨_, a, b, hab⟩ := h2 hm
    exact absurd hab (hr a b)
  · exact absurd hm h1

example : Reached Amf0.decode (St.reader [3, 0, 1, 97, 10, 255, 255, 255, 255, 5]) :=
  ⟨_, _, _, .refl (fresh [] true id) _ _ _⟩
example : ∀ a b : UInt8, ¬ [7, a, b] <:+: [3, 0, 1, 97, 10, 255, 255, 255, 255, 5] := by
  intro a b h
  have := List.IsInfix.subset h (List.mem_cons_self)
  simp at this

/-- C23 fails: a fresh decoder panics on the reference `07 00 00`; so does any decoder on a reference to the
next index. -/
theorem C23_amf0_total_refuted :
    (Amf0.decode (St.buffer [7, 0, 0])).1 = .panic ∧
    (Amf0.decode (St.buffer [3, 0, 1, 97, 7, 0, 1])).1 = .panic := by decide +kernel

/-! ## C24 -/

/-- C24 (partial): a date in the AMF0 format (marker 11, float64 milliseconds, two-byte time zone) is decoded
to its milliseconds and consumed exactly.  Missing: the library does not write that format
(`C24_amf0_dates_refuted`). -/
theorem C24_amf0_dates_partial (ms : UInt64) (z1 z2 : UInt8) (s : St) (rest : Bytes) (hc : s.Contig)
    (hd : s.data = 11 :: (be64 ms ++ [z1, z2]) ++ rest) :
    ∃ s', Amf0.decode s = (.ok (.f64 ms), s') ∧ s'.data = rest := by
  have h : Codec true false (Amf0.dec (s.data.length + 1)) (11 :: (be64 ms ++ [z1, z2])) (.f64 ms) := by
    rw [dec_succ]
    refine Codec.bind_f (a := [11]) (Codec.readByte 11) (Codec.map (f := Val.f64) (x := ms) ?_)
    have h1 := Codec.readFull (r := true) (be64 ms) (be64_length ms) (by omega)
    refine Codec.bind_f h1 ?_
    have := (Codec.readBytes (r := true) [z1, z2]).map (fun _ => UInt64.ofNat (beNat (be64 ms)))
    rw [beNat_be64] at this ⊢
    exact this
  obtain ⟨s', h1, h2, _⟩ := h.parse s rest hc hd (by simp)
  exact ⟨s', h1, h2⟩

example : ∃ s', Amf0.decode (St.buffer (11 :: (be64 0x40f86a0000000000 ++ [0, 0]) ++ [5])) =
    (.ok (.f64 0x40f86a0000000000), s') ∧ s'.data = [5] :=
  C24_amf0_dates_partial _ 0 0 _ [5] (fun _ => Nat.le_refl _) rfl

/-- C24 fails for every time: decoding an encoded time yields the bit pattern of its milliseconds shifted
right by a byte, and leaves the last byte of the encoding unread. -/
theorem C24_amf0_dates_refuted (t : Int) (s : St) (rest : Bytes) (hc : s.Contig)
    (hd : s.data = amf0Bytes (.time t) ++ rest) :
    ∃ s', Amf0.decode s = (.ok (.f64 (F64.mul1000 (F64.ofInt t) >>> 8)), s') ∧ s'.data = 0 :: rest := by
  have hb : amf0Bytes (.time t) = [11, 0] ++ be64 (F64.mul1000 (F64.ofInt t)) ++ [0, 0] := by
    unfold amf0Bytes
    have := (emits_date t).mem.2
    refine this.trans ?_
    simp
  generalize F64.mul1000 (F64.ofInt t) = x at hb ⊢
  have he : (be64 (x >>> 8)) ++ [x.toUInt8, 0] = 0 :: (be64 x ++ [0]) := by
    have h0 : (x >>> 8 >>> 56).toUInt8 = 0 := by
      apply UInt8.toNat_inj.mp
      have := x.toNat_lt
      simp [Nat.shiftRight_eq_div_pow]; omega
    have hs : ∀ a b : Nat, a + 8 < 64 → b = a + 8 → (x >>> 8 >>> UInt64.ofNat a) = x >>> UInt64.ofNat b := by
      intro a b ha hb
      subst hb
      apply UInt64.toNat_inj.mp
      have h1 : a % 18446744073709551616 % 64 = a := by omega
      have h2 : (a + 8) % 18446744073709551616 % 64 = a + 8 := by omega
      simp only [UInt64.toNat_shiftRight, UInt64.toNat_ofNat']
      simp [h1, h2, Nat.shiftRight_eq_div_pow, Nat.div_div_eq_div_mul, Nat.pow_add, Nat.mul_comm]
    have h48 := hs 48 56 (by omega) (by omega)
    have h40 := hs 40 48 (by omega) (by omega)
    have h32 := hs 32 40 (by omega) (by omega)
    have h24 := hs 24 32 (by omega) (by omega)
    have h16 := hs 16 24 (by omega) (by omega)
    have h8 := hs 8 16 (by omega) (by omega)
    simp only [be64, List.cons_append, List.nil_append, h0]
    simp at h48 h40 h32 h24 h16 h8
    simp [h48, h40, h32, h24, h16, h8]
  refine C24_amf0_dates_partial (x >>> 8) x.toUInt8 0 s (0 :: rest) hc ?_
  rw [hd, hb, he]
  simp

example : amf0Bytes (.time 100) = [11, 0, 0x40, 0xf8, 0x6a, 0, 0, 0, 0, 0, 0, 0] ∧
    (Amf0.decode (St.buffer (amf0Bytes (.time 100)))).1 = .ok (.f64 0x0040f86a00000000) := by decide +kernel

/-! ## C25 -/

theorem later_same0 (k : Nat) {s t : St} (h : Later Amf0.decode s t) : Amf0.Same0 k s t := by
  induction h with
  | refl => exact fun h => ⟨h, rfl⟩
  | step d e l _ ih =>
    intro hk
    have h1 := ih hk
    have h2 := Amf0.keep_decode k _ h1.1
    exact ⟨h2.1, h2.2.trans h1.2⟩

/-- C25 (partial): if decoding an object or ECMA array succeeds when `n` complex values were met before, then
at any later time a reference to index `n` is decoded to that very object (`shared n`), whose contents are
the decoded entries.  Missing: strict arrays and typed objects (`C25_amf0_references_refuted`). -/
theorem C25_amf0_references_partial (s : St) (data : Bytes) (kvs : List (Bytes × Val)) (s1 s2 : St) (rest : Bytes)
    (m : UInt8) (hm : m = 3 ∨ m = 8) (hd : s.data = m :: data) (h1 : Amf0.decode s = (.ok (.obj kvs), s1))
    (h2 : Later Amf0.decode s1 s2) (hn : s.refs0.length < 65536)
    (hd2 : s2.data = 7 :: be16 (UInt16.ofNat s.refs0.length) ++ rest) :
    ∃ s3, Amf0.decode s2 = (.ok (.shared s.refs0.length), s3) ∧ s3.data = rest ∧
      s2.refs0[s.refs0.length]? = some (.object kvs) := by
  have e1 : s1.refs0[s.refs0.length]? = some (.object kvs) := by
    unfold Amf0.decode at h1
    rw [dec_succ, GoM.bind_apply, Safe.readByte_cons hd] at h1
    rcases hm with rfl | rfl
    · simp only [branch] at h1
      simp only [show ((3 : UInt8) = 0) = False by decide, show ((3 : UInt8) = 1) = False by decide,
        show ((3 : UInt8) = 2) = False by decide, if_false, if_true, GoM.bind_apply] at h1
      rcases hm : Amf0.decodeObject (Amf0.dec s.data.length) s.data.length { s with data := data } with ⟨r, s'⟩
      rw [hm] at h1
      cases r with
      | ok o =>
        simp at h1
        have := decodeObject_entry _ _ _ _ _ hm
        rw [← h1.1, ← h1.2]
        exact this
      | _ => simp at h1
    · simp only [branch] at h1
      simp only [show ((8 : UInt8) = 0) = False by decide, show ((8 : UInt8) = 1) = False by decide,
        show ((8 : UInt8) = 2) = False by decide, show ((8 : UInt8) = 3) = False by decide,
        show ((8 : UInt8) = 4) = False by decide, show ((8 : UInt8) = 5) = False by decide,
        show ((8 : UInt8) = 6) = False by decide, show ((8 : UInt8) = 13) = False by decide, false_or,
        show ((8 : UInt8) = 7) = False by decide, if_false, if_true, GoM.bind_apply, Amf0.decodeEcmaArray, Amf0.readU32] at h1
      rcases hf : readFull 4 { s with data := data } with ⟨r, s'⟩
      have hk : s'.refs0 = s.refs0 := by
        unfold readFull at hf
        split at hf
        · simp at hf; rw [← hf.2]
        · split at hf <;> (simp at hf; rw [← hf.2])
      rw [hf] at h1
      cases r with
      | ok b =>
        simp only [GoM.pure_apply] at h1
        rcases hm : Amf0.decodeObject (Amf0.dec s.data.length) s.data.length s' with ⟨r, s''⟩
        rw [hm] at h1
        cases r with
        | ok o =>
          simp at h1
          have := decodeObject_entry _ _ _ _ _ hm
          rw [← h1.1, ← h1.2, ← hk]
          exact this
        | _ => simp at h1
      | _ => simp at h1
  have hl1 : s.refs0.length + 1 ≤ s1.refs0.length := (List.getElem?_eq_some_iff.mp e1).1
  have hsame := later_same0 (s.refs0.length + 1) h2 hl1
  have e2 : s2.refs0[s.refs0.length]? = some (.object kvs) := by
    have := congrArg (fun l => l[s.refs0.length]?) hsame.2
    simpa [List.getElem?_take, e1] using this
  refine ⟨{ s2 with data := rest }, ?_, rfl, e2⟩
  unfold Amf0.decode
  rw [dec_succ, GoM.bind_apply, Safe.readByte_cons (x := 7) (t := be16 (UInt16.ofNat s.refs0.length) ++ rest) (by simpa using hd2)]
  have hu : Amf0.readU16 { s2 with data := be16 (UInt16.ofNat s.refs0.length) ++ rest } =
      (.ok s.refs0.length, { s2 with data := rest }) := by
    simp only [Amf0.readU16, GoM.bind_apply, readFull]
    rw [if_neg (by simp [be16]), if_neg (by simp [be16])]
    have : beNat (be16 (UInt16.ofNat s.refs0.length)) = s.refs0.length := beNat_be16 _ hn
    have ht : List.take 2 (be16 (UInt16.ofNat s.refs0.length) ++ rest) = be16 (UInt16.ofNat s.refs0.length) := rfl
    have hdr : List.drop 2 (be16 (UInt16.ofNat s.refs0.length) ++ rest) = rest := rfl
    simp only [ht, hdr, this, GoM.pure_apply]
  have hlt : ¬ s.refs0.length > s2.refs0.length := by have := hsame.1; omega
  simp only [branch]
  simp only [show ((7 : UInt8) = 0) = False by decide, show ((7 : UInt8) = 1) = False by decide,
    show ((7 : UInt8) = 2) = False by decide, show ((7 : UInt8) = 3) = False by decide,
    show ((7 : UInt8) = 4) = False by decide, show ((7 : UInt8) = 5) = False by decide,
    show ((7 : UInt8) = 6) = False by decide, show ((7 : UInt8) = 13) = False by decide, false_or, if_false, if_true]
  simp only [Amf0.decodeReference, GoM.bind_apply, hu, GoM.get_apply, if_neg hlt]
  have hi : goIndex s2.refs0 (s.refs0.length : Int) = .ok (.object kvs) := by
    simp [goIndex, e2]
  simp [hi]

/-- An object {"a": true}, then (in another message) a reference to it. -/
example : ∃ s3, Amf0.decode { (Amf0.decode (St.buffer [3, 0, 1, 97, 1, 1, 0, 0, 9])).2 with data := [7, 0, 0] } =
    (.ok (.shared 0), s3) ∧ s3.data = [] ∧ (Amf0.decode (St.buffer [3, 0, 1, 97, 1, 1, 0, 0, 9])).2.refs0[0]? = some (.object [([97], .bool true)]) :=
  C25_amf0_references_partial (St.buffer [3, 0, 1, 97, 1, 1, 0, 0, 9]) [0, 1, 97, 1, 1, 0, 0, 9] [([97], .bool true)]
    (Amf0.decode (St.buffer [3, 0, 1, 97, 1, 1, 0, 0, 9])).2
    { (Amf0.decode (St.buffer [3, 0, 1, 97, 1, 1, 0, 0, 9])).2 with data := [7, 0, 0] } [] 3 (.inl rfl) rfl
    (Prod.ext (by decide +kernel) rfl) (.refl _ _ _ _) (by simp [St.buffer]) rfl

/-- C25 (partial), the encoding side: what `EncodeReference` writes (and counts) is three bytes that refer to that
object. -/
theorem C25_amf0_encode_reference_partial (s : St) (data : Bytes) (kvs : List (Bytes × Val)) (s1 s2 : St) (rest : Bytes)
    (m : UInt8) (hm : m = 3 ∨ m = 8) (hd : s.data = m :: data) (h1 : Amf0.decode s = (.ok (.obj kvs), s1))
    (h2 : Later Amf0.decode s1 s2) (hn : s.refs0.length < 65536)
    (hd2 : s2.data = (Amf0.encodeReference (UInt16.ofNat s.refs0.length) Sink.mem).2.out ++ rest) :
    (Amf0.encodeReference (UInt16.ofNat s.refs0.length) Sink.mem).1 = .ok 3 ∧
    (Amf0.encodeReference (UInt16.ofNat s.refs0.length) Sink.mem).2.out.length = 3 ∧
    ∃ s3, Amf0.decode s2 = (.ok (.shared s.refs0.length), s3) ∧ s3.data = rest ∧
      s2.refs0[s.refs0.length]? = some (.object kvs) :=
  ⟨rfl, rfl,
    C25_amf0_references_partial s data kvs s1 s2 rest m hm hd h1 h2 hn hd2⟩

example : ∃ s3, Amf0.decode { (Amf0.decode (St.buffer [3, 0, 1, 97, 1, 1, 0, 0, 9])).2 with
      data := (Amf0.encodeReference 0 Sink.mem).2.out ++ [] } = (.ok (.shared 0), s3) ∧ s3.data = [] ∧
    (Amf0.decode (St.buffer [3, 0, 1, 97, 1, 1, 0, 0, 9])).2.refs0[0]? = some (.object [([97], .bool true)]) :=
  (C25_amf0_encode_reference_partial (St.buffer [3, 0, 1, 97, 1, 1, 0, 0, 9]) [0, 1, 97, 1, 1, 0, 0, 9] [([97], .bool true)]
    (Amf0.decode (St.buffer [3, 0, 1, 97, 1, 1, 0, 0, 9])).2
    { (Amf0.decode (St.buffer [3, 0, 1, 97, 1, 1, 0, 0, 9])).2 with data := (Amf0.encodeReference 0 Sink.mem).2.out ++ [] }
    [] 3 (.inl rfl) rfl (Prod.ext (by decide +kernel) rfl) (.refl _ _ _ _) (by simp [St.buffer]) rfl).2.2

/-- C25 fails: a reference to the strict array [nil] yields an empty array, and a reference to the typed
object "A" {} yields a typed object with an empty name, the object itself being counted once more. -/
theorem C25_amf0_references_refuted :
    (Amf0.decode (St.buffer [10, 0, 0, 0, 1, 5])).1 = .ok (.arr [.nil]) ∧
    (Amf0.decode { (Amf0.decode (St.buffer [10, 0, 0, 0, 1, 5])).2 with data := [7, 0, 0] }).1 = .ok (.arr []) ∧
    (Amf0.decode (St.buffer [16, 0, 1, 65, 0, 0, 9])).1 = .ok (.typed [65] []) ∧
    (Amf0.decode { (Amf0.decode (St.buffer [16, 0, 1, 65, 0, 0, 9])).2 with data := [7, 0, 0] }).1 = .ok (.typed [] []) ∧
    (Amf0.decode { (Amf0.decode (St.buffer [16, 0, 1, 65, 0, 0, 9])).2 with data := [7, 0, 1] }).1 = .ok (.shared 1) := by
  decide +kernel

/-! ## C26 -/

theorem decode_marker {b : Bool} {m : UInt8} {body : Bytes} {x : Val} (s : St) (rest : Bytes) (hc : s.Contig)
    (hd : s.data = m :: body ++ rest) (hr : b = true → s.eofOnEmpty = true → rest ≠ [])
    (h : Codec false b (branch s.data.length m) body x) : ∃ s', Amf0.decode s = (.ok x, s') ∧ s'.data = rest := by
  have h1 : Codec false b (Amf0.dec (s.data.length + 1)) ([m] ++ body) x := by
    rw [dec_succ]; exact Codec.bind_f (Codec.readByte m) h
  obtain ⟨s', h2, h3, _⟩ := h1.parse s rest hc hd hr
  exact ⟨s', h2, h3⟩

/-- C26, `EncodeEcmaArray`: decoded as the object, consuming exactly the encoding. -/
theorem C26_amf0_ecma_array (kvs : List (Bytes × Val)) (hk : (kvs.map Prod.fst).Nodup) (he : EncodableF kvs)
    (hp : PlainF kvs) (s : St) (rest : Bytes) (hc : s.Contig)
    (hd : s.data = (Amf0.encodeEcmaArray kvs Sink.mem).2.out ++ rest) :
    (Amf0.encodeEcmaArray kvs Sink.mem).1 = .ok (Amf0.encodeEcmaArray kvs Sink.mem).2.out.length ∧
    ∃ s', Amf0.decode s = (.ok (.obj kvs), s') ∧ s'.data = rest := by
  obtain ⟨cs, h1, h2⟩ := emits_wireF kvs he
  have hE : Emits (Amf0.encodeEcmaArray kvs) _ _ := (Emits.writeByte 8).bind ((Emits.write _).bind h2.map)
  rw [hE.mem.2] at hd ⊢
  rw [hE.mem.1]
  refine ⟨by simp [h1, be32_length]; omega, ?_⟩
  have hb : s.data = 8 :: (be32 (UInt32.ofNat kvs.length) ++ wireF kvs) ++ rest := by rw [hd]; simp [h1]
  have hl : (wireF kvs).length < s.data.length := by rw [hb]; simp; omega
  have hw := codec_wireF (rj := false) kvs he s.data.length s.data.length hl hl
  refine decode_marker (b := false) s rest hc hb (by simp) ?_
  refine Codec.map (f := Val.obj) (x := kvs) (m := Amf0.decodeEcmaArray _ _) ?_
  have hu : Codec false false Amf0.readU32 (be32 (UInt32.ofNat kvs.length)) (beNat (be32 (UInt32.ofNat kvs.length))) :=
    (Codec.readFull (r := false) (be32 (UInt32.ofNat kvs.length)) (be32_length _) (by omega)).map beNat
  refine Codec.bind_f hu (codec_pushRef _ fun id => ?_)
  have := hw id [] (by simpa using hk)
  simpa [numbers_plainF kvs hp] using this

/-- C26, `EncodeXmlDocument`: decoded as the string (for the empty document on a `bytes.Reader` something must
follow, as in C19). -/
theorem C26_amf0_xml (x : Bytes) (hx : x.length < 2 ^ 32) (s : St) (rest : Bytes) (hc : s.Contig)
    (hd : s.data = (Amf0.encodeXmlDocument x Sink.mem).2.out ++ rest)
    (hr : s.eofOnEmpty = true → x = [] → rest ≠ []) :
    (Amf0.encodeXmlDocument x Sink.mem).1 = .ok (5 + x.length) ∧
    ∃ s', Amf0.decode s = (.ok (.str x), s') ∧ s'.data = rest := by
  have hb : Amf0.encodeXmlDocument x Sink.mem = (.ok (5 + x.length), { out := 15 :: utf8Long x, calls := 3 }) := by
    have h : Amf0.encodeXmlDocument x Sink.mem =
        (Amf0.encodeLongString x false >>= fun n => pure (n + 1)) { out := [15], calls := 1 } := rfl
    rw [h, ((emits_longString x false).map (g := fun n => n + 1)).reliable _ (fun _ => rfl)]
    simp [utf8Long]; omega
  rw [hb] at hd ⊢
  refine ⟨rfl, ?_⟩
  refine decode_marker (b := x.isEmpty) (m := 15) (body := utf8Long x) s rest hc hd (by simpa using fun a b => hr b a) ?_
  exact Codec.map (codec_longString x hx) Val.str

/-- C26, `EncodeUndefined` and `EncodeUnsupported`: one byte, decoded as nil. -/
theorem C26_amf0_undefined_unsupported (enc : GoM Sink Nat) (h : enc = Amf0.encodeUndefined ∨ enc = Amf0.encodeUnsupported)
    (s : St) (rest : Bytes) (hc : s.Contig) (hd : s.data = (enc Sink.mem).2.out ++ rest) :
    (enc Sink.mem).1 = .ok 1 ∧ (enc Sink.mem).2.out.length = 1 ∧
    ∃ s', Amf0.decode s = (.ok .nil, s') ∧ s'.data = rest := by
  rcases h with rfl | rfl
  · refine ⟨rfl, rfl, decode_marker (b := false) (m := 6) (body := []) s rest hc hd (by simp) ?_⟩
    exact Codec.pure _
  · refine ⟨rfl, rfl, decode_marker (b := false) (m := 13) (body := []) s rest hc hd (by simp) ?_⟩
    exact Codec.pure _

/-- C26, `EncodeWithAMF3`: decoded as the AMF3 value (in the sense of C30). -/
theorem C26_amf0_with_amf3 (v : Val) (hv : Spec.Amf3.Encodable v) (s : St) (rest : Bytes) (hc : s.Contig)
    (hd : s.data = (Amf0.encodeWithAMF3 v Sink.mem).2.out ++ rest) :
    (Amf0.encodeWithAMF3 v Sink.mem).1 = .ok (Amf0.encodeWithAMF3 v Sink.mem).2.out.length ∧
    ∃ w s', Amf0.decode s = (.ok w, s') ∧ s'.data = rest ∧ Spec.Amf3.Same v w := by
  obtain ⟨cs, h1, h2⟩ := Amf3.emits_wire v hv
  have hb : Amf0.encodeWithAMF3 v Sink.mem =
      (.ok ((Amf3.wire v).length + 1), { out := 17 :: Amf3.wire v, calls := 1 + cs.length }) := by
    have h : Amf0.encodeWithAMF3 v Sink.mem =
        (Amf3.enc v >>= fun n => pure (n + 1)) { out := [17], calls := 1 } := rfl
    rw [h, (h2.map (g := fun n => n + 1)).reliable _ (fun _ => rfl)]
    simp [h1]
  rw [hb] at hd ⊢
  refine ⟨by simp, ?_⟩
  have hm : branch s.data.length 17 = Amf3.decode Amf0.noHandlers := rfl
  obtain ⟨s', h3, h4⟩ := decode_marker (b := false) (m := 17) (body := Amf3.wire v) (x := Amf3.back v) s rest hc hd (by simp) (by
    rw [hm]
    exact ⟨fun s rest hs hd _ => (Amf3.valCodec Amf0.noHandlers).parse v hv s rest hs hd (by simp), by simp, by simp⟩)
  exact ⟨_, s', h3, h4, Amf3.same_back v hv⟩

example : ∃ s', Amf0.decode (St.reader ((Amf0.encodeEcmaArray [([97], .nil), ([98], .str [])] Sink.mem).2.out ++ [])) =
    (.ok (.obj [([97], .nil), ([98], .str [])]), s') ∧ s'.data = [] :=
  (C26_amf0_ecma_array [([97], .nil), ([98], .str [])] (by simp) (by simp [EncodableF, Encodable])
    (by simp [PlainF, Plain]) _ [] (fun _ => Nat.le_refl _) rfl).2
example : ∃ s', Amf0.decode (St.reader ((Amf0.encodeXmlDocument [60, 97, 47, 62] Sink.mem).2.out ++ [5])) =
    (.ok (.str [60, 97, 47, 62]), s') ∧ s'.data = [5] :=
  (C26_amf0_xml [60, 97, 47, 62] (by decide) _ [5] (fun _ => Nat.le_refl _) rfl (by simp)).2
example : ∃ w s', Amf0.decode (St.reader ((Amf0.encodeWithAMF3 (.arr [.str [97], .uint false 300]) Sink.mem).2.out ++ [5])) =
    (.ok w, s') ∧ s'.data = [5] ∧ Spec.Amf3.Same (.arr [.str [97], .uint false 300]) w :=
  (C26_amf0_with_amf3 (.arr [.str [97], .uint false 300])
    (by simp [Spec.Amf3.Encodable, Spec.Amf3.EncodableL]) _ [5] (fun _ => Nat.le_refl _) rfl).2

/-! ## C27 -/

/-- C27: an integer of magnitude at most 2^53 is written as a number, and that number read back has exactly
its value. -/
theorem C27_amf0_integers (i : Int) (h : i.natAbs ≤ 2 ^ 53) (is64 : Bool) (v : Val)
    (hv : v = .int is64 i ∨ (0 ≤ i ∧ v = .uint is64 i.toNat)) (s : St) (rest : Bytes) (hc : s.Contig)
    (hd : s.data = amf0Bytes v ++ rest) :
    ∃ f s', amf0Bytes v = 0 :: be64 f ∧ Amf0.decode s = (.ok (.f64 f), s') ∧ s'.data = rest ∧ Spec.F64.IsInt f i := by
  have hn : numbers v = .f64 (F64.ofInt i) ∧ Encodable v ∧ wire v = 0 :: be64 (F64.ofInt i) ∧ endsEmpty v = false := by
    rcases hv with rfl | ⟨h0, rfl⟩
    · exact ⟨rfl, trivial, rfl, rfl⟩
    · have : ((i.toNat : Nat) : Int) = i := Int.toNat_of_nonneg h0
      simp only [numbers, wire, Encodable, number, this, endsEmpty, and_self]
  obtain ⟨s', h1, h2⟩ := C17_amf0_round_trip_numbers v hn.2.1 s rest hc hd (by simp [hn.2.2.2])
  exact ⟨F64.ofInt i, s', (amf0Bytes_wire v hn.2.1).trans hn.2.2.1, by rw [h1, hn.1], h2, F64.ofInt_isInt i h⟩

example : ∃ f s', amf0Bytes (.int true (-9007199254740991)) = 0 :: be64 f ∧
    Amf0.decode (St.buffer (amf0Bytes (.int true (-9007199254740991)) ++ [])) = (.ok (.f64 f), s') ∧ s'.data = [] ∧
    Spec.F64.IsInt f (-9007199254740991) :=
  C27_amf0_integers (-9007199254740991) (by decide) true _ (.inl rfl) _ [] (fun _ => Nat.le_refl _) rfl

/-! ## C28 -/

/-- The first value in `p`, read with a `bytes.Reader` by a decoder with tables `st`, is the string `x`. -/
def startsWithString (st : St) (p x : Bytes) : Prop :=
  ∃ s', Amf0.decode { st with data := p, eofOnEmpty := true, lim := id } = (.ok (.str x), s')

/-- The AMF0 string "@setDataFrame" (marker, length 13, characters). -/
def metaHeader : Bytes := [2, 0, 13, 64, 115, 101, 116, 68, 97, 116, 97, 70, 114, 97, 109, 101]
/-- The characters of "@setDataFrame". -/
def setDataFrameChars : Bytes := "@setDataFrame".toUTF8.toList

theorem metaHeader_eq : Amf0.setFrameFrame = metaHeader := by decide +kernel
theorem chars_eq : Amf0.setDataFrame = setDataFrameChars := by decide +kernel

theorem startsWith_header (st : St) (q : Bytes) : startsWithString st (metaHeader ++ q) setDataFrameChars := by
  have he : Encodable (.str setDataFrameChars) := by rw [← chars_eq]; simp [Encodable, Amf0.setDataFrame]
  have hw : wire (.str setDataFrameChars) = metaHeader := by decide +kernel
  obtain ⟨s', h, _⟩ := Amf0.valCodec.parse (.str setDataFrameChars) he
    { st with data := metaHeader ++ q, eofOnEmpty := true, lim := id } q (fun _ => Nat.le_refl _) (by rw [hw])
    (by intro h; rw [← chars_eq] at h; simp [endsEmpty, Amf0.setDataFrame] at h)
  exact ⟨s', h⟩

/-- C28: `AddMetaHeader` prepends the header to data that begins with another string and leaves data that
already begins with it unchanged. -/
theorem C28_add (st : St) (p x : Bytes) (h : startsWithString st p x) :
    Amf0.addMetaHeader Amf0.decode st p = .ok (if x = setDataFrameChars then p else metaHeader ++ p) := by
  obtain ⟨s', h⟩ := h
  simp only [Amf0.addMetaHeader, h, chars_eq, metaHeader_eq]
  by_cases hx : x = setDataFrameChars <;> simp [hx]

/-- C28: `DelMetaHeader` leaves data that begins with another string unchanged. -/
theorem C28_del_other (st : St) (p x : Bytes) (h : startsWithString st p x) (hx : x ≠ setDataFrameChars) :
    Amf0.delMetaHeader Amf0.decode st p = .ok p := by
  obtain ⟨s', h⟩ := h
  simp [Amf0.delMetaHeader, h, chars_eq, hx]

/-- C28: `DelMetaHeader` removes the header, whatever follows it. -/
theorem C28_del_header (st : St) (q : Bytes) : Amf0.delMetaHeader Amf0.decode st (metaHeader ++ q) = .ok q := by
  obtain ⟨s', h⟩ := startsWith_header st q
  simp only [Amf0.delMetaHeader, h, chars_eq, metaHeader_eq, if_true]
  have hl : metaHeader.length = 16 := rfl
  unfold goSlice
  rw [if_pos (by simp; omega)]
  have : ((metaHeader ++ q).length : Int).toNat = (metaHeader ++ q).length := Int.toNat_natCast _
  rw [this, List.take_length, Int.toNat_natCast]
  rw [List.drop_left]

/-- C28: deleting undoes adding, for decoders with any tables. -/
theorem C28_del_add (st st' : St) (p x : Bytes) (h : startsWithString st p x) (hx : x ≠ setDataFrameChars) :
    ∃ q, Amf0.addMetaHeader Amf0.decode st p = .ok q ∧ Amf0.delMetaHeader Amf0.decode st' q = .ok p :=
  ⟨metaHeader ++ p, by rw [C28_add st p x h, if_neg hx], C28_del_header st' p⟩

/-- C28: adding twice is adding once. -/
theorem C28_add_idempotent (st : St) (p x : Bytes) (h : startsWithString st p x) :
    ∃ q, Amf0.addMetaHeader Amf0.decode st p = .ok q ∧ Amf0.addMetaHeader Amf0.decode st q = .ok q := by
  by_cases hx : x = setDataFrameChars
  · exact ⟨p, by rw [C28_add st p x h, if_pos hx], by rw [C28_add st p x h, if_pos hx]⟩
  · exact ⟨metaHeader ++ p, by rw [C28_add st p x h, if_neg hx],
      by rw [C28_add st _ _ (startsWith_header st p), if_pos rfl]⟩

/-- The string "onMetaData" followed by an ECMA array. -/
def sampleMeta : Bytes := [2, 0, 10, 111, 110, 77, 101, 116, 97, 68, 97, 116, 97, 8, 0, 0, 0, 0, 0, 0, 9]
example : startsWithString (St.buffer []) sampleMeta [111, 110, 77, 101, 116, 97, 68, 97, 116, 97] :=
  ⟨(Amf0.decode { St.buffer [] with data := sampleMeta, eofOnEmpty := true, lim := id }).2, Prod.ext (by decide +kernel) rfl⟩
example : Amf0.addMetaHeader Amf0.decode (St.buffer []) sampleMeta = .ok (metaHeader ++ sampleMeta) := by decide +kernel

end Amf0
end Verif.Props
