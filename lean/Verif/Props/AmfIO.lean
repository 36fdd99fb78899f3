import Verif.Lemmas.AmfIO
import Verif.Props.Amf0
import Verif.Props.Amf3
/-!
# Properties C107 and C108: the AMF codecs on readers with short reads and on failing writers

A reader is described by `St.lim`: with `r` bytes left, one `Read` returns at most `max 1 (lim r)` bytes.
-/
namespace Verif.Props
open Verif Verif.Amf Verif.Spec.Amf Verif.Spec.AmfIO

/-! ## C107 -/

/-- C107 (partial), AMF0: on every reader, whatever it splits, an encoded value is decoded to what `bytes.Buffer` gives
(integers and byte slices as numbers, see C17), stopping at its end, or an error is returned; no other value is ever
returned.  Missing: the error (`C107_amf0_short_reads_refuted`). -/
theorem C107_amf0_short_reads_partial (v : Val) (hv : Spec.Amf0.Encodable v) (s : St) (rest : Bytes)
    (hd : s.data = amf0Bytes v ++ rest) :
    (∃ e s', Amf0.decode s = (.err e, s')) ∨ ∃ s', Amf0.decode s = (.ok (Spec.Amf0.numbers v), s') ∧ s'.data = rest :=
  Amf0.decode_frag v hv s rest (by rw [← amf0Bytes_wire v hv]; exact hd)

/-- A reader that returns at most two bytes at a time. -/
example : ∃ s', Amf0.decode ⟨amf0Bytes (.arr [.f64 5, .str [97, 98]]) ++ [1], true, fun _ => 2, [], [], [], []⟩ =
    (.ok (.arr [.f64 5, .str [97, 98]]), s') ∧ s'.data = [1] := by
  rcases C107_amf0_short_reads_partial (.arr [.f64 5, .str [97, 98]]) (by simp [Spec.Amf0.Encodable, Spec.Amf0.EncodableL])
    ⟨amf0Bytes (.arr [.f64 5, .str [97, 98]]) ++ [1], true, fun _ => 2, [], [], [], []⟩ [1] rfl with ⟨e, s', h⟩ | h
  · rw [amf0Bytes_wire _ (by simp [Spec.Amf0.Encodable, Spec.Amf0.EncodableL])] at h
    revert h
    generalize hx : (Amf0.decode _) = x
    have : x.1.isOk = true := by rw [← hx]; decide +kernel
    intro h; rw [h] at this; simp [Res.isOk] at this
  · exact h

/-- C107 (partial), AMF3: the same for values without byte arrays. -/
theorem C107_amf3_short_reads_partial (H : Amf3.Handlers) (v : Val) (hv : Spec.Amf3.Encodable v) (hn : Spec.Amf3.NoBytes v)
    (s : St) (rest : Bytes) (hd : s.data = amf3Bytes v ++ rest) :
    (∃ e s', Amf3.decode H s = (.err e, s')) ∨ ∃ w s', Amf3.decode H s = (.ok w, s') ∧ s'.data = rest ∧ Spec.Amf3.Same v w := by
  rcases Amf3.decode_frag H v hv hn s rest (by rw [← amf3Bytes_wire v hv]; exact hd) with h | ⟨s', h1, h2⟩
  · exact .inl h
  · exact .inr ⟨_, s', h1, h2, Amf3.same_back v hv⟩

example : (∃ e s', Amf3.decode (fun _ => none) ⟨amf3Bytes (.str [97, 98]) ++ [1], true, fun _ => 1, [], [], [], []⟩ = (.err e, s')) ∨
    ∃ w s', Amf3.decode (fun _ => none) ⟨amf3Bytes (.str [97, 98]) ++ [1], true, fun _ => 1, [], [], [], []⟩ = (.ok w, s') ∧
      s'.data = [1] ∧ Spec.Amf3.Same (.str [97, 98]) w :=
  C107_amf3_short_reads_partial _ (.str [97, 98]) (by simp [Spec.Amf3.Encodable]) (by simp [Spec.Amf3.NoBytes]) _ [1] rfl

/-- C107 fails for every AMF0 string of at least two bytes: a reader that returns fewer bytes than the string has makes
`Decode` fail, although all the bytes are there. -/
theorem C107_amf0_short_reads_refuted (x : Bytes) (h2 : 2 ≤ x.length) (hx : x.length < 2 ^ 32) (s : St) (rest : Bytes)
    (hd : s.data = amf0Bytes (.str x) ++ rest) (hl : s.lim (x.length + rest.length) < x.length) :
    ∃ s', Amf0.decode s = (.err .other, s') := by
  rw [amf0Bytes_wire (.str x) (by simpa [Spec.Amf0.Encodable] using hx)] at hd
  obtain ⟨t', ht⟩ := readBytes_short x rest h2 { s with data := x ++ rest } rfl hl
  refine ⟨t', ?_⟩
  show Amf0.dec (s.data.length + 1) s = _
  rw [Amf0.dec_succ, GoM.bind_apply]
  by_cases hs : x.length < 65536
  · have hu : Amf0.decodeString { s with data := be16 (UInt16.ofNat x.length) ++ (x ++ rest) } = (.err .other, t') := by
      simp only [Amf0.decodeString, Amf0.readU16, GoM.bind_apply,
        readFull_any (n := 2) (be16 (UInt16.ofNat x.length)) (x ++ rest) rfl (by decide) { s with data := be16 (UInt16.ofNat x.length) ++ (x ++ rest) } rfl,
        beNat_be16 x.length hs, GoM.pure_apply, ht]
    rw [Safe.readByte_cons (x := 2) (t := be16 (UInt16.ofNat x.length) ++ (x ++ rest))
      (by rw [hd]; simp [Spec.Amf0.wire, hs, Spec.Amf0.utf8])]
    show (Amf0.decodeString >>= fun s => pure (Val.str s)) _ = _
    rw [GoM.bind_apply, hu]
  · have hu : Amf0.decodeLongString { s with data := be32 (UInt32.ofNat x.length) ++ (x ++ rest) } = (.err .other, t') := by
      simp only [Amf0.decodeLongString, Amf0.readU32, GoM.bind_apply,
        readFull_any (n := 4) (be32 (UInt32.ofNat x.length)) (x ++ rest) rfl (by decide) { s with data := be32 (UInt32.ofNat x.length) ++ (x ++ rest) } rfl,
        beNat_be32 x.length hx, GoM.pure_apply, ht]
    rw [Safe.readByte_cons (x := 12) (t := be32 (UInt32.ofNat x.length) ++ (x ++ rest))
      (by rw [hd]; simp [Spec.Amf0.wire, hs, Spec.Amf0.utf8Long])]
    show (Amf0.decodeLongString >>= fun s => pure (Val.str s)) _ = _
    rw [GoM.bind_apply, hu]

/-- "ab" on a reader that returns one byte at a time. -/
example : ∃ s', Amf0.decode ⟨amf0Bytes (.str [97, 98]) ++ [], true, fun _ => 1, [], [], [], []⟩ = (.err .other, s') :=
  C107_amf0_short_reads_refuted [97, 98] (by decide) (by decide) _ [] rfl (by decide)

/-- C107 fails silently for every AMF3 byte array of at least two bytes: when the reader returns only the first `k` of
them, `Decode` succeeds, the other bytes are zeros, and the real ones are left in the reader as if they were the next
value. -/
theorem C107_amf3_short_reads_refuted (H : Amf3.Handlers) (x : Bytes) (hx : x.length < 2 ^ 28) (s : St) (rest : Bytes)
    (k : Nat) (hk : k = max 1 (s.lim (x.length + rest.length))) (hkx : k < x.length) (hd : s.data = amf3Bytes (.bytes x) ++ rest) :
    ∃ s', Amf3.decode H s = (.ok (.bytes (x.take k ++ List.replicate (x.length - k) 0)), s') ∧ s'.data = x.drop k ++ rest := by
  rw [amf3Bytes_wire (.bytes x) (by simpa [Spec.Amf3.Encodable] using hx)] at hd
  have hw : Amf3.wire (.bytes x) = 12 :: (Spec.Amf3.u29 (2 * x.length + 1) ++ x) := by
    simp [Amf3.wire, Spec.Amf3.utf8]
  rw [hw] at hd
  obtain ⟨s1, h1, h2, h3⟩ := Amf3.len_any x.length hx { s with data := Spec.Amf3.u29 (2 * x.length + 1) ++ (x ++ rest) } (x ++ rest) rfl
  have hne : s1.data ≠ [] := by
    rw [h2]; intro h; have := (List.append_eq_nil_iff.mp h).1; rw [this] at hkx; simp at hkx
  have hg : s1.got x.length = k := by
    unfold St.got
    rw [h2, h3]
    simp only [List.length_append]
    omega
  have hz := Amf3.ofNat_ne_zero x.length hx (by omega)
  have hr : Amf3.readPadded x.length s1 = (.ok (x.take k ++ List.replicate (x.length - k) 0), { s1 with data := x.drop k ++ rest }) := by
    have e1 : (x ++ rest).take k = x.take k := List.take_append_of_le_length (by omega)
    have e2 : (x ++ rest).drop k = x.drop k ++ rest := List.drop_append_of_le_length (by omega)
    have hraw : rawRead x.length s1 = (.ok (x.take k), { s1 with data := x.drop k ++ rest }) := by
      unfold rawRead
      rw [if_neg (by simpa using hne), hg, h2, e1, e2]
    simp only [Amf3.readPadded, GoM.bind_apply, hraw]
    simp [Nat.min_eq_left (Nat.le_of_lt hkx)]
  refine ⟨{ s1 with data := x.drop k ++ rest, objTab := s1.objTab ++ [.bytes (x.take k ++ List.replicate (x.length - k) 0)] }, ?_, rfl⟩
  show Amf3.dec H (s.data.length + 1) s = _
  rw [Amf3.dec_succ, GoM.bind_apply, Safe.readByte_cons (x := 12) (t := Spec.Amf3.u29 (2 * x.length + 1) ++ (x ++ rest)) (by rw [hd]; simp)]
  show Amf3.decodeByteArray _ = _
  unfold Amf3.decodeByteArray
  rw [GoM.bind_apply, h1]
  simp only [hz, if_false, Amf3.toNat_ofNat_lt _ hx]
  simp [GoM.bind_apply, hr, Amf3.pushObj]

example : ∃ s', Amf3.decode (fun _ => none) ⟨amf3Bytes (.bytes [1, 2, 3]) ++ [9], true, fun _ => 2, [], [], [], []⟩ =
    (.ok (.bytes [1, 2, 0]), s') ∧ s'.data = [3, 9] :=
  C107_amf3_short_reads_refuted (fun _ => none) [1, 2, 3] (by decide) _ [9] 2 (by decide) (by decide) rfl

/-- C107 fails for every AMF3 string of at least two bytes too: a short read is an error. -/
theorem C107_amf3_string_refuted (H : Amf3.Handlers) (x : Bytes) (h2 : 2 ≤ x.length) (hx : x.length < 2 ^ 28) (s : St)
    (rest : Bytes) (hd : s.data = amf3Bytes (.str x) ++ rest) (hl : s.lim (x.length + rest.length) < x.length) :
    ∃ s', Amf3.decode H s = (.err .other, s') := by
  rw [amf3Bytes_wire (.str x) (by simpa [Spec.Amf3.Encodable] using hx)] at hd
  obtain ⟨s1, h1, h2', h3⟩ := Amf3.len_any x.length hx { s with data := Spec.Amf3.u29 (2 * x.length + 1) ++ (x ++ rest) } (x ++ rest) rfl
  obtain ⟨t', ht⟩ := readBytes_short x rest h2 s1 h2' (by rw [h3]; exact hl)
  have hz := Amf3.ofNat_ne_zero x.length hx (by omega)
  refine ⟨t', ?_⟩
  show Amf3.dec H (s.data.length + 1) s = _
  rw [Amf3.dec_succ, GoM.bind_apply, Safe.readByte_cons (x := 6) (t := Spec.Amf3.u29 (2 * x.length + 1) ++ (x ++ rest))
    (by rw [hd]; simp [Amf3.wire, Spec.Amf3.utf8])]
  have hu : Amf3.decodeString { s with data := Spec.Amf3.u29 (2 * x.length + 1) ++ (x ++ rest) } = (.err .other, t') := by
    unfold Amf3.decodeString
    rw [GoM.bind_apply, h1]
    simp only [hz, if_false, Amf3.toNat_ofNat_lt _ hx]
    simp [GoM.bind_apply, ht]
  show (Amf3.decodeString >>= fun s => pure (Val.str s)) _ = _
  rw [GoM.bind_apply, hu]

example : ∃ s', Amf3.decode (fun _ => none) ⟨amf3Bytes (.str [97, 98]) ++ [], true, fun _ => 1, [], [], [], []⟩ = (.err .other, s') :=
  C107_amf3_string_refuted _ [97, 98] (by decide) (by decide) _ [] rfl (by decide)

/-! ## C108 -/

/-- C108 (partial), AMF0: for every value, also one that cannot be encoded, and every writer. -/
theorem C108_amf0_writer_partial (v : Val) (vs : List Val) (kvs : List (Bytes × Val)) (ref : UInt16) :
    Reports (Amf0.encode v) ∧ Reports (Amf0.encodeBatch vs) ∧ Reports (Amf0.encodeEcmaArray kvs) ∧
    Reports (Amf0.encodeReference ref) ∧ Reports Amf0.encodeUndefined ∧ Reports Amf0.encodeUnsupported :=
  ⟨(Amf0.emitting_enc v).reports, (Amf0.emitting_batch vs).reports,
    ((Emitting.writeByte _).bind fun _ => (Emitting.write _).bind fun _ => (Amf0.emitting_encObj kvs).bind fun _ => Emitting.pure _).reports,
    ((Emitting.writeByte _).bind fun _ => (Emitting.write _).bind fun _ => Emitting.pure _).reports,
    ((Emitting.writeByte _).bind fun _ => Emitting.pure _).reports, ((Emitting.writeByte _).bind fun _ => Emitting.pure _).reports⟩

/-- C108, AMF3. -/
theorem C108_amf3_writer (v : Val) (vs : List Val) : Reports (Amf3.encode v) ∧ Reports (Amf3.encodeBatch vs) :=
  ⟨(Amf3.emitting_enc v).reports, (Amf3.emitting_batch vs).reports⟩

/-- The third `Write` fails after one byte: the marker, the length and "a" were written. -/
example : Amf0.encode (.str [97, 98]) { Sink.mem with plan := fun k => if k = 2 then some 1 else none } =
    (.err .writer, { out := [2, 0, 2, 97], calls := 3, plan := fun k => if k = 2 then some 1 else none }) := by
  simp [Amf0.encode, Amf0.enc, Amf0.encodeString, Amf0.optMarker, writeByte, Sink.write, Sink.mem, GoM.bind_apply, be16]
  decide

/-- C108 fails for `EncodeWithAMF3` and `EncodeXmlDocument`: on every writer whose next `Write` fails they report success
(with count 0) for every value. -/
theorem C108_amf0_writer_refuted (v : Val) (x : Bytes) (w : Sink) (n : Nat) (hw : w.plan w.calls = some n) :
    (∃ w', Amf0.encodeWithAMF3 v w = (.ok 0, w')) ∧ ∃ w', Amf0.encodeXmlDocument x w = (.ok 0, w') := by
  constructor
  · exact ⟨_, by simp only [Amf0.encodeWithAMF3, Amf0.swallowMarker, writeByte, Sink.write, hw]; rfl⟩
  · exact ⟨_, by simp only [Amf0.encodeXmlDocument, Amf0.swallowMarker, writeByte, Sink.write, hw]; rfl⟩

/-- A writer that never accepts anything. -/
example : ∃ w', Amf0.encodeXmlDocument [60, 97, 62] { Sink.mem with plan := fun _ => some 0 } = (.ok 0, w') :=
  (C108_amf0_writer_refuted .nil [60, 97, 62] _ 0 rfl).2

/-- So neither of the two calls reports failures of its writer. -/
theorem C108_not_reported (v : Val) (x : Bytes) :
    ¬ Reports (Amf0.encodeWithAMF3 v) ∧ ¬ Reports (Amf0.encodeXmlDocument x) := by
  have key : ∀ m : GoM Sink Nat, ∀ b : UInt8, (∃ rest, m = Amf0.swallowMarker b rest) → ¬ Reports m := by
    rintro m b ⟨rest, rfl⟩ h
    obtain ⟨p, q, _, _, h3, _⟩ := h { Sink.mem with plan := fun _ => some 0 }
    have h4 : Amf0.swallowMarker b rest { Sink.mem with plan := fun _ => some 0 } =
        (.ok 0, { Sink.mem with calls := 1, plan := fun _ => some 0 }) := by
      simp [Amf0.swallowMarker, writeByte, Sink.write, Sink.mem]
    rw [h4] at h3
    have : (Res.ok 0 : Res Nat) = .err .writer := h3.mpr ⟨0, by simp [Sink.mem], by simp, by simp⟩
    simp at this
  exact ⟨key _ _ ⟨_, rfl⟩, key _ _ ⟨_, rfl⟩⟩

end Verif.Props
