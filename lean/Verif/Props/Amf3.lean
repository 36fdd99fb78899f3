import Verif.Lemmas.Amf3Refs
import Verif.Lemmas.Float64
import Verif.Spec.AmfHistory
/-!
# Properties C29–C39: AMF3

The wire fragments and value relations are specified in `Verif/Spec/Amf3.lean`, decoder histories in
`Verif/Spec/AmfHistory.lean`.  `H` is any table of registered external handlers.
-/
namespace Verif.Props
open Verif Verif.Amf Verif.Spec.Amf

section Amf3
open Verif.Amf3 Verif.Spec.Amf3

/-- What a `bytes.Buffer` contains after `Encode(&buf, v)`. -/
def amf3Bytes (v : Val) : Bytes := (Amf3.encode v Sink.mem).2.out
/-- What a `bytes.Buffer` contains after `EncodeBatch(&buf, vs...)`. -/
def amf3Batch (vs : List Val) : Bytes := (Amf3.encodeBatch vs Sink.mem).2.out

theorem amf3Bytes_wire (v : Val) (h : Encodable v) : amf3Bytes v = wire v := by
  obtain ⟨cs, h1, h2⟩ := emits_wire v h
  exact h2.mem.2.trans h1

theorem amf3Batch_wire (vs : List Val) (h : ∀ v ∈ vs, Encodable v) : amf3Batch vs = vs.flatMap wire := by
  obtain ⟨cs, h1, h2⟩ := Amf3.emits_batch vs h
  exact h2.mem.2.trans h1

attribute [irreducible] amf3Bytes amf3Batch

theorem later3_traitsOk (H : Handlers) {s t : St} (h : Later (Amf3.decode H) s t) (hs : TraitsOk s) : TraitsOk t := by
  induction h with
  | refl => exact hs
  | step _ _ _ _ ih => exact (Amf3.safe_decode (N := _) (pan := false) H _ (Nat.le_refl _) ih).2.2.2.2

theorem reached3_traitsOk (H : Handlers) {s : St} (h : Reached (Amf3.decode H) s) : TraitsOk s := by
  obtain ⟨d, e, l, h⟩ := h
  exact later3_traitsOk H h (by simp [TraitsOk, fresh])

/-! ## C29 -/

/-- C29: integers below 2^29 are written as the 1 to 4 bytes of minimal length of the AMF3 specification and
read back unchanged by any decoder, stopping exactly at the end; larger ones are rejected and nothing is
written. -/
theorem C29_u29_round_trip (v : UInt32) :
    (v.toNat < 2 ^ 29 →
      Amf3.writeUint29 v Sink.mem = (.ok (u29 v.toNat).length, { Sink.mem with out := u29 v.toNat, calls := 1 }) ∧
      (u29 v.toNat).length =
        (if v.toNat < 2 ^ 7 then 1 else if v.toNat < 2 ^ 14 then 2 else if v.toNat < 2 ^ 21 then 3 else 4) ∧
      ∀ (s : St) (rest : Bytes), s.Contig → s.data = u29 v.toNat ++ rest →
        ∃ s', Amf3.readUint29 s = (.ok v, s') ∧ s'.data = rest) ∧
    (2 ^ 29 ≤ v.toNat → ∀ w : Sink, Amf3.writeUint29 v w = (.err .other, w)) := by
  refine ⟨fun h => ⟨?_, u29_length _, ?_⟩, fun h w => ?_⟩
  · unfold Amf3.writeUint29
    rw [u29Bytes_eq, if_pos h]
    simp [Sink.write, Sink.mem, GoM.bind_apply]
  · intro s rest hc hd
    obtain ⟨s', h1, h2, _⟩ := (codec_readUint29 (rj := false) v.toNat h).parse s rest hc hd (by simp)
    exact ⟨s', by simpa using h1, h2⟩
  · rw [writeUint29_large v (by omega)]; rfl

example : ∃ s', Amf3.readUint29 (St.buffer (u29 300 ++ [7])) = (.ok 300, s') ∧ s'.data = [7] :=
  ((C29_u29_round_trip 300).1 (by decide)).2.2 (St.buffer (u29 300 ++ [7])) [7] (fun _ => Nat.le_refl _) rfl

example : Amf3.writeUint29 0x20000000 Sink.mem = (.err .other, Sink.mem) :=
  (C29_u29_round_trip 0x20000000).2 (by decide) Sink.mem

/-! ## C30 -/

/-- {"b": [1.5, nil, "x"], "a": typed "T" {"k": true, "j": 7}, "c": bytes 1 2} -/
def sampleVal3 : Val :=
  .obj [([98], .arr [.f64 0x3ff8000000000000, .nil, .str [120]]),
    ([97], .typed [84] [([107], .bool true), ([106], .uint false 7)]), ([99], .bytes [1, 2]),
    ([100], .time 1700000000)]

theorem sampleVal3_ok : Encodable sampleVal3 := by
  simp [sampleVal3, Encodable, EncodableF, EncodableL]

/-- C30: encoding succeeds; decoding what was encoded, followed by anything, by any decoder whatever it was
used for before, stops exactly at the end of the encoding and gives the value back in the sense of
`Spec.Amf3.Same`. -/
theorem C30_amf3_round_trip (H : Handlers) (v : Val) (hv : Encodable v) (s : St) (rest : Bytes) (hc : s.Contig)
    (hd : s.data = amf3Bytes v ++ rest) :
    (Amf3.encode v Sink.mem).1 = .ok (amf3Bytes v).length ∧
    ∃ w s', Amf3.decode H s = (.ok w, s') ∧ s'.data = rest ∧ Same v w := by
  obtain ⟨cs, h1, h2⟩ := emits_wire v hv
  rw [amf3Bytes_wire v hv] at hd ⊢
  obtain ⟨s', h3, h4, _⟩ := (valCodec H).parse v hv s rest hc hd (by simp)
  exact ⟨h2.mem.1, back v, s', h3, h4, same_back v hv⟩

example : ∃ w s', Amf3.decode (fun _ => none) (St.buffer (amf3Bytes sampleVal3 ++ [1, 2])) = (.ok w, s') ∧
    s'.data = [1, 2] ∧ Same sampleVal3 w :=
  (C30_amf3_round_trip (fun _ => none) sampleVal3 sampleVal3_ok (St.buffer (amf3Bytes sampleVal3 ++ [1, 2])) [1, 2]
    (fun _ => Nat.le_refl _) rfl).2

/-! ## C31 -/

/-- C31: values that differ only in the iteration order of their maps, at any level, are encoded the same: same
result, same calls of `Write`, same bytes, on every writer. -/
theorem C31_amf3_deterministic (v w : Val) (h : MapEq v w) (k : Sink) : Amf3.encode v k = Amf3.encode w k := by
  unfold Amf3.encode
  rw [enc_mapEq v w h]

theorem mapEq_sample : MapEq (.obj [([98], .obj [([1], .nil), ([2], .nil)]), ([97], .bool true)])
    (.obj [([97], .bool true), ([98], .obj [([2], .nil), ([1], .nil)])]) := by
  refine ⟨[([98], .obj [([2], .nil), ([1], .nil)]), ([97], .bool true)], _, rfl, .swap _ _ _, by simp, ?_⟩
  refine ⟨_, _, rfl, ⟨_, _, rfl, .swap _ _ _, by simp, ?_⟩, ⟨_, _, rfl, rfl, rfl⟩⟩
  exact ⟨_, _, rfl, rfl, ⟨_, _, rfl, rfl, rfl⟩⟩

example : amf3Bytes (.obj [([98], .obj [([1], .nil), ([2], .nil)]), ([97], .bool true)]) =
    amf3Bytes (.obj [([97], .bool true), ([98], .obj [([2], .nil), ([1], .nil)])]) := by
  unfold amf3Bytes
  rw [C31_amf3_deterministic _ _ mapEq_sample]

/-! ## C32 -/

/-- C32 (partial): every non-negative integer of the advertised range is encoded as an AMF3 integer.  Missing:
the negative ones (`C32_amf3_negative_refuted`). -/
theorem C32_amf3_integers_partial (i : Int) (h : 0 ≤ i ∧ i ≤ 536870910) :
    amf3Bytes (.int false i) = 4 :: u29 i.toNat ∧
    (Amf3.encode (.int false i) Sink.mem).1 = .ok (1 + (u29 i.toNat).length) := by
  have he : Encodable (.int false i) := by simp only [Encodable]; omega
  obtain ⟨cs, h1, h2⟩ := emits_wire (.int false i) he
  have hw : wire (.int false i) = 4 :: u29 i.toNat := by
    unfold wire
    rw [if_pos (by omega)]
  rw [amf3Bytes_wire _ he, hw]
  rw [hw] at h2
  exact ⟨rfl, by rw [Amf3.encode, h2.mem.1]; simp [Nat.add_comm]⟩

example : amf3Bytes (.int false 300) = [4, 130, 44] := (C32_amf3_integers_partial 300 (by decide)).1.trans (by decide)

/-- C32 fails for every negative integer of the advertised range: `Encode` returns an error, having already
written the integer marker. -/
theorem C32_amf3_negative_refuted (i : Int) (h : -536870911 ≤ i ∧ i < 0) (w : Sink) (hw : w.Reliable) :
    (Amf3.encode (.int false i) w).1 = .err .other ∧ (Amf3.encode (.int false i) w).2.out = w.out ++ [4] := by
  have hE : Emits (Amf3.encode (.int false i)) [[4]] (.err .other) := by
    unfold Amf3.encode enc
    rw [if_pos (by omega)]
    unfold encodeInteger
    rw [writeUint29_large _ (by
      rw [UInt32.toNat_ofNat']
      omega)]
    have : Emits (do
        writeByte 4
        let m ← (GoM.fail .other : GoM Sink Nat)
        pure (1 + m)) ([[4]] ++ []) (.err .other) := (Emits.writeByte 4).bind (Emits.bind_err (Emits.fail _))
    exact this
  rw [hE.reliable w hw]
  simp

example : (Amf3.encode (.int false (-1)) Sink.mem).1 = .err .other := (C32_amf3_negative_refuted (-1) (by decide) Sink.mem (fun _ => rfl)).1

/-! ## C33 -/

/-- C33 fails: what is decoded never depends on the registered handlers, after any history. -/
theorem C33_amf3_handlers_refuted (H H' : Handlers) (s : St) (hs : Reached (Amf3.decode H) s) :
    Amf3.decode H s = Amf3.decode H' s :=
  agree_decode H H' s (reached3_traitsOk H hs)

example : Amf3.decode (fun _ => some (pure .nil)) (St.buffer [10, 7, 3, 65, 1]) =
    Amf3.decode (fun _ => none) (St.buffer [10, 7, 3, 65, 1]) :=
  C33_amf3_handlers_refuted _ _ _ ⟨[], false, fun n => n, .refl _ _ _ _⟩

theorem decode_flagged (H : Handlers) (n : Nat) (hn : n < 16) (ho : n % 4 = 3) (name : Bytes) (hl : name.length < 2 ^ 28)
    (s : St) (rest : Bytes) (hc : s.Contig) (hd : s.data = [10, UInt8.ofNat n] ++ utf8 name ++ rest) :
    ∃ s', Amf3.decode H s = (.ok (.obj []), s') ∧ s'.data = rest := by
  have h1 : Codec false false (decodeObject H (dec H s.data.length) s.data.length) (u29 n ++ utf8 name) (.obj []) := by
    have e : n = 2 * (n / 2) + 1 := by omega
    rw [e]
    refine Codec.bind_f (codec_decodeUint29 (n / 2) (by omega)) ?_
    have ht : Codec false false (decodeTrait (UInt32.ofNat (n / 2))) (utf8 name) ⟨name, false, false, []⟩ := by
      have q : n / 2 = 1 ∨ n / 2 = 3 ∨ n / 2 = 5 ∨ n / 2 = 7 := by omega
      unfold decodeTrait
      have q1 : ¬ (UInt32.ofNat (n / 2) &&& 1 = 0) := by rcases q with h | h | h | h <;> rw [h] <;> decide
      have q2 : (UInt32.ofNat (n / 2) >>> 3).toNat = 0 := by rcases q with h | h | h | h <;> rw [h] <;> decide
      rw [if_neg q1, q2]
      have := Codec.bind_f (r := false) (codec_string name hl) (c := []) (b2 := false) (y := (⟨name, false, false, []⟩ : Trait))
        (f := fun type => do
          let props ← propNames 0 []
          let t : Trait := ⟨type, UInt32.ofNat (n / 2) &&& 2 == 1, UInt32.ofNat (n / 2) &&& 4 == 1, props⟩
          GoM.modify (fun s => { s with traits := s.traits ++ [t] })
          pure t) (by
            simp only [and2_ne_one, and4_ne_one]
            refine Codec.bind_f (a := []) (Codec.pure _) ?_
            exact Codec.bind_f (a := []) (Codec.modify _ fun s => ⟨rfl, rfl, rfl⟩) (Codec.pure _))
      simpa using this
    have := Codec.bind_f (r := false) ht (c := []) (b2 := false) (y := Val.obj [])
      (f := fun t => do
        pushObj .nil
        if t.externalizable then decodeExt H (dec H s.data.length) s.data.length t.type
        else
          let o ← propVals (dec H s.data.length) t.properties []
          let o ← if t.dynamic then do
              let key ← decodeString
              assocLoop (dec H s.data.length) s.data.length key o
            else pure o
          pure (.obj o)) (codec_pushObj _ (Codec.pure _))
    simpa using this
  have h2 : Codec false false (dec H (s.data.length + 1)) ([10] ++ (u29 n ++ utf8 name)) (.obj []) := by
    rw [dec_succ]; exact Codec.bind_f (Codec.readByte 10) h1
  obtain ⟨s', h3, h4, _⟩ := h2.parse s rest hc (by rw [hd]; simp [u29, show n < 128 by omega]) (by simp)
  exact ⟨s', h3, h4⟩

/-- C33 fails for every object without sealed members, whatever its class name and whatever follows: with the
dynamic flag (header 0x0B), the externalizable flag (0x07) or both (0x0F) it is decoded as the empty object and
its members or external data are left unread. -/
theorem C33_amf3_flags_refuted (H : Handlers) (hdr : UInt8) (hh : hdr = 0x0B ∨ hdr = 0x07 ∨ hdr = 0x0F) (name : Bytes)
    (hl : name.length < 2 ^ 28) (s : St) (members : Bytes) (hc : s.Contig)
    (hd : s.data = [10, hdr] ++ utf8 name ++ members) :
    ∃ s', Amf3.decode H s = (.ok (.obj []), s') ∧ s'.data = members := by
  rcases hh with rfl | rfl | rfl
  · exact decode_flagged H 11 (by omega) (by omega) name hl s members hc hd
  · exact decode_flagged H 7 (by omega) (by omega) name hl s members hc hd
  · exact decode_flagged H 15 (by omega) (by omega) name hl s members hc hd

example : ∃ s', Amf3.decode (fun _ => none) (St.buffer ([10, 0x0B] ++ utf8 [] ++ [3, 97, 4, 1, 1])) = (.ok (.obj []), s') ∧
    s'.data = [3, 97, 4, 1, 1] :=
  C33_amf3_flags_refuted (fun _ => none) 0x0B (.inl rfl) [] (by decide) (St.buffer ([10, 0x0B] ++ utf8 [] ++ [3, 97, 4, 1, 1]))
    [3, 97, 4, 1, 1] (fun _ => Nat.le_refl _) rfl

/-! ## C34 -/

/-- C34: a fresh decoder fed string values sent in full or as references into the table of the non-empty
strings sent before recovers exactly the strings denoted, in order and without an error. -/
theorem C34_amf3_string_references (H : Handlers) (items : List Sent) (hf : ∀ i ∈ items, i.Fits) (out : List Bytes)
    (ho : denote [] items = some out) (eofOnEmpty : Bool) (lim : Nat → Nat) (hc : ∀ n, n ≤ lim n) :
    ∃ s', Amf3.decodeBatch H (fresh (items.flatMap Sent.bytes) eofOnEmpty lim) = (.ok (out.map Val.str, none), s') := by
  have hlen : items.length ≤ (items.flatMap Sent.bytes).length := by
    clear hf ho
    induction items with
    | nil => simp
    | cons i r ih =>
      have : 0 < i.bytes.length := by cases i <;> simp [Sent.bytes]
      simp only [List.flatMap_cons, List.length_append, List.length_cons]; omega
  obtain ⟨s', h⟩ := sent_batch H items hf [] out ho ((items.flatMap Sent.bytes).length + 1) (by omega) []
    (fresh (items.flatMap Sent.bytes) eofOnEmpty lim) hc rfl rfl
  exact ⟨s', by simpa [Amf3.decodeBatch, fresh] using h⟩

/-- "ab", "", "c", the second and the first string again. -/
example : ∃ s', Amf3.decodeBatch (fun _ => none)
    (fresh ([Sent.lit [97, 98], .lit [], .lit [99], .ref 1, .ref 0].flatMap Sent.bytes) true (fun n => n)) =
    (.ok ([[97, 98], [], [99], [99], [97, 98]].map Val.str, none), s') :=
  C34_amf3_string_references (fun _ => none) _ (by simp [Sent.Fits]) [[97, 98], [], [99], [99], [97, 98]]
    (by simp [denote]) true (fun n => n) (fun _ => Nat.le_refl _)

/-! ## C35 -/

/-- Non-empty XML documents (markers 7 and 11) and byte arrays (12), and dates (8), sent in full. -/
inductive SentSimple : UInt8 → Bytes → Val → Prop
  | xml (m : UInt8) (hm : m = 7 ∨ m = 11) (x : Bytes) (h0 : x ≠ []) (h : x.length < 2 ^ 28) :
      SentSimple m (m :: u29 (2 * x.length + 1) ++ x) (.str x)
  | bytes (x : Bytes) (h0 : x ≠ []) (h : x.length < 2 ^ 28) : SentSimple 12 (12 :: u29 (2 * x.length + 1) ++ x) (.bytes x)
  | date (sec : Int) (h : (sec * 1000).natAbs ≤ 2 ^ 53) :
      SentSimple 8 (8 :: u29 1 ++ be64 (F64.ofInt (sec * 1000))) (.time sec)

theorem later_sameObj (H : Handlers) (k : Nat) {s t : St} (h : Later (Amf3.decode H) s t) (hs : TraitsOk s) : SameObj k s t := by
  induction h with
  | refl => exact fun h => ⟨h, rfl⟩
  | @step t d e l hl ih =>
    intro hk
    have h1 := ih hk
    have ht := later3_traitsOk H hl hs
    rw [agree_decode H (fun _ => none) t ht]
    have h2 := Amf3.keep_decode (frame_sameObj k) (fun _ => none) (by simp) t h1.1
    exact ⟨h2.1, h2.2.trans h1.2⟩

/-- C35 (partial): a date, XML document or byte array sent in full when `n` complex values were met before is
returned again whenever, at any later time, a reference to index `n` is decoded under the same marker.
Missing: objects and arrays (`C35_amf3_references_refuted`). -/
theorem C35_amf3_references_partial (H : Handlers) (m : UInt8) (b : Bytes) (v : Val) (hv : SentSimple m b v)
    (s : St) (hs : Reached (Amf3.decode H) s) (hc : s.Contig) (rest : Bytes) (hd : s.data = b ++ rest)
    (hn : s.objTab.length < 2 ^ 28) :
    ∃ s1, Amf3.decode H s = (.ok v, s1) ∧ s1.data = rest ∧
      ∀ (s2 : St) (rest2 : Bytes), Later (Amf3.decode H) s1 s2 → s2.Contig →
        s2.data = m :: u29 (2 * s.objTab.length) ++ rest2 →
        ∃ s3, Amf3.decode H s2 = (.ok v, s3) ∧ s3.data = rest2 := by
  have hlit : ∃ s1, Amf3.decode H s = (.ok v, s1) ∧ s1.data = rest ∧ s1.objTab = s.objTab ++ [v] := by
    cases hv with
    | xml _ hm x h0 h =>
      have h1 := decodeBlob_lit m (by rcases hm with rfl | rfl <;> simp) H x h0 h s rest hc hd
      have : ¬ m = 12 := by rcases hm with rfl | rfl <;> decide
      simpa [this] using h1
    | bytes x h0 h => simpa using decodeBlob_lit 12 (by simp) H x h0 h s rest hc hd
    | date sec h =>
      have h1 := decodeDate_lit H (F64.ofInt (sec * 1000)) s rest hc hd
      rwa [F64.div1000_int sec h, F64.toInt64_int sec (by omega)] at h1
  obtain ⟨s1, h1, h2, h3⟩ := hlit
  refine ⟨s1, h1, h2, fun s2 rest2 hl hc2 hd2 => ?_⟩
  have ht := decode_traitsOk H s v s1 (reached3_traitsOk H hs) h1
  have hk := later_sameObj H (s.objTab.length + 1) hl ht (by rw [h3]; simp)
  have hget : s2.objTab[s.objTab.length]? = some v := by
    have e1 : (s2.objTab.take (s.objTab.length + 1))[s.objTab.length]? = s2.objTab[s.objTab.length]? := by
      simp
    rw [← e1, hk.2, h3]
    simp
  refine decode_ref H m _ hn v s2 rest2 hc2 hd2 hget ?_
  cases hv with
  | xml _ hm x h0 h => exact .inr (.inl ⟨hm, x, rfl⟩)
  | bytes x h0 h => exact .inr (.inr (.inl ⟨rfl, x, rfl⟩))
  | date sec h => exact .inl ⟨rfl, sec, rfl⟩

example : ∃ s1, Amf3.decode (fun _ => none) (fresh [12, 5, 1, 2] false (fun n => n)) = (.ok (.bytes [1, 2]), s1) ∧ s1.data = [] ∧
    ∀ (s2 : St) (rest2 : Bytes), Later (Amf3.decode (fun _ => none)) s1 s2 → s2.Contig →
      s2.data = 12 :: u29 (2 * 0) ++ rest2 → ∃ s3, Amf3.decode (fun _ => none) s2 = (.ok (.bytes [1, 2]), s3) ∧ s3.data = rest2 :=
  C35_amf3_references_partial (fun _ => none) 12 _ _ (.bytes [1, 2] (by simp) (by decide)) (fresh [12, 5, 1, 2] false (fun n => n))
    ⟨[], false, fun n => n, .refl _ _ _ _⟩ (fun _ => Nat.le_refl _) [] (by decide) (by simp [fresh])

/-- C35 fails: a reference to the object {"a": true} yields nil, a reference to the array [true] an empty
array. -/
theorem C35_amf3_references_refuted (H : Handlers) :
    (Amf3.decode H (St.buffer [10, 19, 1, 3, 97, 3])).1 = .ok (.obj [([97], .bool true)]) ∧
    (Amf3.decode H { (Amf3.decode H (St.buffer [10, 19, 1, 3, 97, 3])).2 with data := [10, 0] }).1 = .ok .nil ∧
    (Amf3.decode H (St.buffer [9, 3, 1, 3])).1 = .ok (.ecma [.bool true] []) ∧
    (Amf3.decode H { (Amf3.decode H (St.buffer [9, 3, 1, 3])).2 with data := [9, 0] }).1 = .ok (.ecma [] []) := by
  have h1 : ∀ d, TraitsOk (St.buffer d) := fun d => by simp [TraitsOk, St.buffer]
  have h2 : ∀ d, Amf3.decode H (St.buffer d) = Amf3.decode (fun _ => none) (St.buffer d) := fun d =>
    agree_decode H (fun _ => none) _ (h1 d)
  have h3 : ∀ d d', Amf3.decode H { (Amf3.decode (fun _ => none) (St.buffer d)).2 with data := d' } =
      Amf3.decode (fun _ => none) { (Amf3.decode (fun _ => none) (St.buffer d)).2 with data := d' } := fun d d' =>
    agree_decode H (fun _ => none) _ (Amf3.safe_decode (pan := false) (N := d.length) (fun _ => none) (St.buffer d) (Nat.le_refl _) (h1 d)).2.2.2.2
  rw [h2, h2, h3, h3]
  decide +kernel

/-! ## C36 -/

/-- C36 (partial): a byte array or XML document of which nothing but the length is present is rejected.
Missing: those cut later (`C36_amf3_truncated_refuted`). -/
theorem C36_amf3_truncated_partial (H : Handlers) (m : UInt8) (hm : m = 7 ∨ m = 11 ∨ m = 12) (n : Nat) (h0 : 0 < n)
    (hn : n < 2 ^ 28) (s : St) (hc : s.Contig) (hd : s.data = m :: u29 (2 * n + 1)) :
    ∃ e s', Amf3.decode H s = (.err e, s') := by
  obtain ⟨s1, h1, h2, h3, h4, h5⟩ := decodeUint29_run (2 * n + 1) (by omega)
    { s with data := u29 (2 * n + 1) } [] hc (by simp)
  have e1 : (2 * n + 1) % 2 = 1 := by omega
  have e2 : (2 * n + 1) / 2 = n := by omega
  simp only [e1, e2] at h1
  have hz := ofNat_ne_zero n hn (by omega)
  have hr : readPadded n s1 = (.err .eof, s1) := by
    have h0' : n ≠ 0 := by omega
    simp [readPadded, rawRead, GoM.bind_apply, h2, h0']
  have hx : decodeXmlDoc { s with data := u29 (2 * n + 1) } = (.err .eof, s1) := by
    unfold decodeXmlDoc
    rw [GoM.bind_apply, h1]
    simp only [hz, if_false, toNat_ofNat_lt _ hn]
    simp [GoM.bind_apply, hr]
  have hy : decodeByteArray { s with data := u29 (2 * n + 1) } = (.err .eof, s1) := by
    unfold decodeByteArray
    rw [GoM.bind_apply, h1]
    simp only [hz, if_false, toNat_ofNat_lt _ hn]
    simp [GoM.bind_apply, hr]
  have hdec : Amf3.decode H s = branch H s.data.length m { s with data := u29 (2 * n + 1) } := by
    show dec H (s.data.length + 1) s = _
    rw [dec_succ, GoM.bind_apply, Safe.readByte_cons hd]
  rw [hdec]
  rcases hm with rfl | rfl | rfl
  · exact ⟨_, _, hx⟩
  · exact ⟨_, _, hx⟩
  · exact ⟨_, _, hy⟩

example : ∃ e s', Amf3.decode (fun _ => none) (St.buffer [12, 11]) = (.err e, s') :=
  C36_amf3_truncated_partial (fun _ => none) 12 (by simp) 5 (by decide) (by decide) (St.buffer [12, 11]) (fun _ => Nat.le_refl _) (by decide)

/-- C36 fails for every byte array and XML document cut after at least one of its `n` bytes: it is accepted,
the missing bytes being replaced by zeros. -/
theorem C36_amf3_truncated_refuted (H : Handlers) (m : UInt8) (hm : m = 7 ∨ m = 11 ∨ m = 12) (n : Nat) (hn : n < 2 ^ 28)
    (p : Bytes) (hp : 0 < p.length ∧ p.length < n) (s : St) (hc : s.Contig) (hd : s.data = m :: u29 (2 * n + 1) ++ p) :
    ∃ s', Amf3.decode H s = (.ok (if m = 12 then .bytes (p ++ List.replicate (n - p.length) 0)
      else .str (p ++ List.replicate (n - p.length) 0)), s') := by
  obtain ⟨s1, h1, h2, h3, h4, h5⟩ := decodeUint29_run (2 * n + 1) (by omega)
    { s with data := u29 (2 * n + 1) ++ p } p hc rfl
  have e1 : (2 * n + 1) % 2 = 1 := by omega
  have e2 : (2 * n + 1) / 2 = n := by omega
  simp only [e1, e2] at h1
  have hz := ofNat_ne_zero n hn (by omega)
  have hne : p ≠ [] := by intro h; simp [h] at hp
  have hr : readPadded n s1 = (.ok (p ++ List.replicate (n - p.length) 0), { s1 with data := [] }) := by
    have hg : s1.got n = p.length := by
      have hl : p.length ≤ s.lim p.length := hc p.length
      simp only [St.got, h2, h4]
      rw [Nat.min_eq_right (a := n) (by omega)]
      omega
    simp [readPadded, rawRead, GoM.bind_apply, hg, h2, hne]
  have hx : ∃ s', decodeXmlDoc { s with data := u29 (2 * n + 1) ++ p } = (.ok (.str (p ++ List.replicate (n - p.length) 0)), s') := by
    unfold decodeXmlDoc
    rw [GoM.bind_apply, h1]
    simp only [hz, if_false, toNat_ofNat_lt _ hn]
    simp [GoM.bind_apply, hr, pushObj]
  have hy : ∃ s', decodeByteArray { s with data := u29 (2 * n + 1) ++ p } = (.ok (.bytes (p ++ List.replicate (n - p.length) 0)), s') := by
    unfold decodeByteArray
    rw [GoM.bind_apply, h1]
    simp only [hz, if_false, toNat_ofNat_lt _ hn]
    simp [GoM.bind_apply, hr, pushObj]
  have hdec : Amf3.decode H s = branch H s.data.length m { s with data := u29 (2 * n + 1) ++ p } := by
    show dec H (s.data.length + 1) s = _
    rw [dec_succ, GoM.bind_apply, Safe.readByte_cons (by simpa using hd)]
  rw [hdec]
  rcases hm with rfl | rfl | rfl
  · exact hx
  · exact hx
  · exact hy

example : ∃ s', Amf3.decode (fun _ => none) (St.buffer [12, 11, 1, 2]) = (.ok (.bytes [1, 2, 0, 0, 0]), s') :=
  C36_amf3_truncated_refuted (fun _ => none) 12 (by simp) 5 (by decide) [1, 2] (by decide) (St.buffer [12, 11, 1, 2])
    (fun _ => Nat.le_refl _) (by decide)

/-! ## C37 -/

/-- C37: when `Encode` succeeds on a writer that does not fail, its count is the number of bytes appended. -/
theorem C37_amf3_count (v : Val) (w : Sink) (hw : w.Reliable) (n : Nat) (hn : (Amf3.encode v w).1 = .ok n) :
    (Amf3.encode v w).2.out.length = w.out.length + n := by
  have := (Amf3.cnt_enc v).result w hw n hn
  unfold Amf3.encode at *
  omega

example : (Amf3.encode (.obj [([98], .arr [.nil]), ([97], .str [120])]) Sink.mem).2.out.length = Sink.mem.out.length + 14 :=
  C37_amf3_count (.obj [([98], .arr [.nil]), ([97], .str [120])]) Sink.mem (fun _ => rfl) 14 (by decide +kernel)

/-! ## C38 -/

/-- C38: decoding any bytes after any history ends with a value or an error. -/
theorem C38_amf3_total (H : Handlers) (s : St) (hs : Reached (Amf3.decode H) s) :
    (∃ v, (Amf3.decode H s).1 = .ok v) ∨ ∃ e, (Amf3.decode H s).1 = .err e := by
  have h := Amf3.safe_decode (pan := false) H s (Nat.le_refl _) (reached3_traitsOk H hs)
  rcases hm : (Amf3.decode H s).1 with v | e | _ | _
  · exact .inl ⟨v, rfl⟩
  · exact .inr ⟨e, rfl⟩
  · exact absurd (h.2.1 hm).1 (by simp)
  · exact absurd hm h.1

/-- C38 for `DecodeBatch`. -/
theorem C38_amf3_batch_total (H : Handlers) (s : St) (hs : Reached (Amf3.decode H) s) :
    ∃ vs e, (Amf3.decodeBatch H s).1 = .ok (vs, e) := by
  obtain ⟨h1, h2, h3⟩ := batch_terminates (d := Amf3.decode H) (pan := false) (fun N => Amf3.safe_decode H) (s.data.length + 1) [] s
    (reached3_traitsOk H hs) (by omega)
  show ∃ vs e, (Amf3.batchLoop (Amf3.decode H) (s.data.length + 1) [] s).1 = _
  rcases hm : (Amf3.batchLoop (Amf3.decode H) (s.data.length + 1) [] s).1 with ⟨vs, e⟩ | e | _ | _
  · exact ⟨vs, e, rfl⟩
  · exact absurd hm (h3 e)
  · exact absurd (h2 hm) (by simp)
  · exact absurd hm h1

example : (∃ v, (Amf3.decode (fun _ => none) (fresh [10, 255, 255] true (fun _ => 1))).1 = .ok v) ∨
    ∃ e, (Amf3.decode (fun _ => none) (fresh [10, 255, 255] true (fun _ => 1))).1 = .err e :=
  C38_amf3_total (fun _ => none) _ ⟨[], true, fun _ => 1, .refl _ _ _ _⟩

/-! ## C39 -/

/-- C39: a time at `sec` whole seconds since 1970 (the fraction is dropped by `Encode`) is written as a date of
10 bytes that any decoder reads back as `sec`. -/
theorem C39_amf3_dates (H : Handlers) (sec : Int) (h : (sec * 1000).natAbs ≤ 2 ^ 53) (s : St) (rest : Bytes) (hc : s.Contig)
    (hd : s.data = (Amf3.encode (.time sec) Sink.mem).2.out ++ rest) :
    (Amf3.encode (.time sec) Sink.mem).1 = .ok 10 ∧
    (Amf3.encode (.time sec) Sink.mem).2.out = [8, 1] ++ be64 (F64.ofInt (sec * 1000)) ∧
    ∃ s', Amf3.decode H s = (.ok (.time sec), s') ∧ s'.data = rest := by
  have hE : Emits (Amf3.encode (.time sec)) _ _ :=
    (Emits.writeByte 8).bind ((Emits.writeByte 1).bind ((Emits.write (be64 (F64.mul1000 (F64.ofInt sec)))).map))
  obtain ⟨h1, h2⟩ := hE.mem
  rw [F64.mul1000_int sec h] at h2
  have h2' : (Amf3.encode (.time sec) Sink.mem).2.out = [8, 1] ++ be64 (F64.ofInt (sec * 1000)) := by
    simpa using h2
  rw [h2'] at hd ⊢
  obtain ⟨s', h3, h4, _⟩ := decodeDate_lit H (F64.ofInt (sec * 1000)) s rest hc (by simpa [u29] using hd)
  rw [F64.div1000_int sec h, F64.toInt64_int sec (by omega)] at h3
  exact ⟨h1, rfl, s', h3, h4⟩

example : ∃ s', Amf3.decode (fun _ => none) (St.buffer ((Amf3.encode (.time 1700000000) Sink.mem).2.out ++ [9])) =
    (.ok (.time 1700000000), s') ∧ s'.data = [9] :=
  (C39_amf3_dates (fun _ => none) 1700000000 (by decide)
    (St.buffer ((Amf3.encode (.time 1700000000) Sink.mem).2.out ++ [9])) [9] (fun _ => Nat.le_refl _) rfl).2.2

/-! ## C88 -/

theorem relL_map (vs : List Val) (h : ∀ v ∈ vs, Encodable v) : SameL vs (vs.map back) := by
  induction vs with
  | nil => simp [SameL]
  | cons v vs ih => exact ⟨_, _, rfl, same_back v (h v (by simp)), ih fun w hw => h w (by simp [hw])⟩

theorem length_batch (vs : List Val) (h : ∀ v ∈ vs, Encodable v) : vs.length ≤ (vs.flatMap wire).length := by
  induction vs with
  | nil => simp
  | cons w ws ih =>
    have := List.length_pos_iff.mpr (Amf3.wire_ne w (h w (by simp)))
    have := ih (fun v hv => h v (by simp [hv]))
    simp only [List.flatMap_cons, List.length_append, List.length_cons]; omega

/-- C88: a batch of AMF3 values comes back complete and in order, with no error, on any reader that returns as
much as it has and with any decoder. -/
theorem C88_amf3_batch (H : Handlers) (vs : List Val) (h : ∀ v ∈ vs, Encodable v) (s : St) (hc : s.Contig)
    (hd : s.data = amf3Batch vs) :
    (Amf3.encodeBatch vs Sink.mem).1 = .ok () ∧
    ∃ ws s', Amf3.decodeBatch H s = (.ok (ws, none), s') ∧ SameL vs ws := by
  obtain ⟨cs, h1, h2⟩ := Amf3.emits_batch vs h
  rw [amf3Batch_wire vs h] at hd
  obtain ⟨s', h3⟩ := (Amf3.valCodec H).batch vs h (s.data.length + 1) (by rw [hd]; have := length_batch vs h; omega) [] s hc hd
    (by simp)
  exact ⟨h2.mem.1, vs.map back, s', h3, relL_map vs h⟩

example : ∃ ws s', Amf3.decodeBatch (fun _ => none) (fresh (amf3Batch [sampleVal3, .nil, .str []]) true (fun n => n)) =
    (.ok (ws, none), s') ∧ SameL [sampleVal3, .nil, .str []] ws :=
  (C88_amf3_batch (fun _ => none) [sampleVal3, .nil, .str []] (by simp [sampleVal3_ok, Encodable])
    (fresh (amf3Batch [sampleVal3, .nil, .str []]) true (fun n => n)) (fun _ => Nat.le_refl _) rfl).2

/-! ## C89 -/

/-- C89: a proper prefix of the encoding of a value without byte arrays is never accepted, after any history. -/
theorem C89_amf3_truncated_rejected (H : Handlers) (v : Val) (hv : Encodable v) (hn : NoBytes v) (s : St)
    (hs : Reached (Amf3.decode H) s) (hc : s.Contig) (q : Bytes) (hq : q ≠ []) (hd : amf3Bytes v = s.data ++ q) :
    ∃ e s', Amf3.decode H s = (.err e, s') := by
  rw [amf3Bytes_wire v hv] at hd
  exact Amf3.decode_rejects H v hv hn s q hc (reached3_traitsOk H hs) hd hq

example : ∃ e s', Amf3.decode (fun _ => none) (St.buffer [10, 19, 1, 3, 97]) = (.err e, s') :=
  C89_amf3_truncated_rejected (fun _ => none) (.obj [([97], .bool true)]) (by simp [Encodable, EncodableF])
    (by simp [NoBytes, NoBytesF]) (St.buffer [10, 19, 1, 3, 97]) ⟨[], false, fun n => n, .refl _ _ _ _⟩ (fun _ => Nat.le_refl _) [3]
    (by simp) (by decide +kernel)

end Amf3
end Verif.Props
