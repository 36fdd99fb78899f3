import Verif.Lemmas.AmfBatch
import Verif.Lemmas.AmfFrame
import Verif.Spec.AmfIO
/-! # Lemmas about the AMF codecs on readers with short reads and on failing writers -/
namespace Verif
open Verif.Spec.AmfIO

/-- `m` writes a fixed sequence of chunks and then succeeds or reports an error of its own. -/
def Emitting {α} (m : GoM Sink α) : Prop := ∃ cs r, Emits m cs r ∧ ((∃ a, r = .ok a) ∨ r = .err .other)

namespace Emitting
variable {α β : Type}

theorem pure (a : α) : Emitting (Pure.pure a : GoM Sink α) := ⟨_, _, Emits.pure a, .inl ⟨a, rfl⟩⟩
theorem fail : Emitting (GoM.fail .other : GoM Sink α) := ⟨_, _, Emits.fail _, .inr rfl⟩
theorem write (b : Bytes) : Emitting (Sink.write b) := ⟨_, _, Emits.write b, .inl ⟨(), rfl⟩⟩
theorem writeByte (b : UInt8) : Emitting (Amf.writeByte b) := write [b]
theorem bind {m : GoM Sink α} {f : α → GoM Sink β} (h : Emitting m) (hf : ∀ a, Emitting (f a)) : Emitting (m >>= f) := by
  obtain ⟨cs, r, h1, h2⟩ := h
  rcases h2 with ⟨a, rfl⟩ | rfl
  · obtain ⟨ds, r, h3, h4⟩ := hf a
    exact ⟨_, r, h1.bind h3, h4⟩
  · exact ⟨_, _, h1.bind_err, .inr rfl⟩
theorem of_emits {m : GoM Sink α} {cs a} (h : Emits m cs (.ok a)) : Emitting m := ⟨_, _, h, .inl ⟨a, rfl⟩⟩
theorem ite {p : Prop} [Decidable p] {m m' : GoM Sink α} (h1 : Emitting m) (h2 : Emitting m') :
    Emitting (if p then m else m') := by
  split
  · exact h1
  · exact h2

/-- What such an action does on a writer that may fail. -/
theorem reports {m : GoM Sink α} (h : Emitting m) : Reports m := by
  obtain ⟨cs, r, h1, h2⟩ := h
  have hm := h1.mem
  intro w
  obtain ⟨_, p, q, h3, h4, h5⟩ := runChunks_any cs w
  have hi := runChunks_err_iff cs w
  have hw : m w = (match runChunks cs w with
      | (.ok _, s') => (r, s')
      | (.err e, s') => (.err e, s')
      | (.panic, s') => (.panic, s')
      | (.diverge, s') => (.diverge, s')) := by
    rw [h1, GoM.bind_apply]
    rcases runChunks cs w with ⟨x, w'⟩
    cases x <;> rfl
  rcases hr : runChunks cs w with ⟨x, w'⟩
  rw [hr] at hw h4 h5 hi
  rcases h5 with ⟨h5, h6⟩ | h5
  · simp only at h5; subst h5
    simp only at hw
    refine ⟨p, q, by rw [hw]; exact h4, by rw [hm.2]; exact h3, ?_, .inr ⟨h6, by rw [hw, hm.1]⟩⟩
    rw [hw]
    simp only at hi ⊢
    rw [← hi]
    constructor
    · intro h; rcases h2 with ⟨a, rfl⟩ | rfl <;> simp at h
    · intro h; simp at h
  · simp only at h5; subst h5
    simp only at hw
    refine ⟨p, q, by rw [hw]; exact h4, by rw [hm.2]; exact h3, ?_, .inl (by rw [hw])⟩
    rw [hw]
    simp only [true_iff] at hi ⊢
    exact hi
end Emitting

namespace Amf0
open Verif.Amf

theorem emitting_string (s : Bytes) (b : Bool) : Emitting (encodeString s b) := Emitting.of_emits (emits_string s b)
theorem emitting_number (f : UInt64) : Emitting (encodeNumber f) := Emitting.of_emits (emits_number f)

theorem emitting_bytes (b : Bytes) : Emitting (encBytes b) := by
  obtain ⟨cs, _, h⟩ := emits_bytes b
  exact Emitting.of_emits h

mutual
theorem emitting_enc : (v : Val) → Emitting (enc v)
  | .nil => Emitting.of_emits (emits_marker 5)
  | .bool b => Emitting.of_emits (emits_bool b)
  | .f64 f => emitting_number f
  | .int _ i => emitting_number _
  | .uint _ n => emitting_number _
  | .str s => by
    unfold enc
    exact Emitting.ite (emitting_string s true) (Emitting.of_emits (emits_longString s true))
  | .arr xs => (Emitting.writeByte _).bind fun _ => (Emitting.write _).bind fun _ => (emitting_encL xs).bind fun _ => Emitting.pure _
  | .bytes b => (Emitting.writeByte _).bind fun _ => (Emitting.write _).bind fun _ => (emitting_bytes b).bind fun _ => Emitting.pure _
  | .obj kvs => (Emitting.of_emits (emits_opt 3 true)).bind fun _ => (emitting_encObj kvs).bind fun _ => Emitting.pure _
  | .typed t kvs => (Emitting.writeByte _).bind fun _ => (emitting_string t false).bind fun _ =>
      (emitting_encObj kvs).bind fun _ => Emitting.pure _
  | .time t => Emitting.of_emits (emits_date t)
  | .ecma _ _ => Emitting.fail
  | .shared _ => Emitting.fail
  | .other => Emitting.fail
theorem emitting_encL : (vs : List Val) → Emitting (encL vs)
  | [] => Emitting.pure _
  | v :: vs => (emitting_enc v).bind fun _ => (emitting_encL vs).bind fun _ => Emitting.pure _
theorem emitting_encObj : (kvs : List (Bytes × Val)) → Emitting (encObj kvs)
  | [] => (emitting_string [] false).bind fun _ => (Emitting.writeByte 9).bind fun _ => Emitting.pure _
  | (k, v) :: r => (emitting_string k false).bind fun _ => (emitting_enc v).bind fun _ =>
      (emitting_encObj r).bind fun _ => Emitting.pure _
end

theorem emitting_batch (vs : List Val) : Emitting (encodeBatch vs) := by
  induction vs with
  | nil => exact Emitting.pure _
  | cons v vs ih => exact (emitting_enc v).bind fun _ => ih

theorem decode_frag (v : Val) (hv : Spec.Amf0.Encodable v) (s : St) (rest : Bytes) (hd : s.data = Spec.Amf0.wire v ++ rest) :
    (∃ e s', decode s = (.err e, s')) ∨ ∃ s', decode s = (.ok (Spec.Amf0.numbers v), s') ∧ s'.data = rest := by
  rcases (codec_wire (rj := true) v hv (s.data.length + 1) (by rw [hd]; simp; omega)).frag rfl s rest hd with h | ⟨s', h1, h2, _⟩
  · exact .inl h
  · exact .inr ⟨s', h1, h2⟩
end Amf0

namespace Amf3
open Verif.Amf

theorem emitting_u29 (v : UInt32) : Emitting (writeUint29 v) := by
  unfold writeUint29
  split
  · exact (Emitting.write _).bind fun _ => Emitting.pure _
  · exact Emitting.fail

theorem emitting_utf8 (s : Bytes) : Emitting (encodeUtf8 s) :=
  (emitting_u29 _).bind fun _ => (Emitting.write _).bind fun _ => Emitting.pure _

theorem emitting_runAll (l : List (GoM Sink Nat)) (h : ∀ m ∈ l, Emitting m) (k : Nat) : Emitting (runAll k l) := by
  induction l generalizing k with
  | nil => exact Emitting.pure _
  | cons m l ih => exact (h m (by simp)).bind fun n => ih (fun m hm => h m (by simp [hm])) _

theorem emitting_entries (t : Bytes) (es : List (Bytes × GoM Sink Nat)) (h : ∀ e ∈ es, Emitting e.2) :
    Emitting (encodeEntries t es) := by
  refine (Emitting.writeByte _).bind fun _ => (emitting_u29 _).bind fun _ => (emitting_utf8 t).bind fun _ => ?_
  refine (emitting_runAll _ ?_ _).bind fun n => emitting_runAll _ ?_ _
  · intro m hm
    obtain ⟨e, _, rfl⟩ := List.mem_map.mp hm
    exact emitting_utf8 _
  · intro m hm
    obtain ⟨e, he, rfl⟩ := List.mem_map.mp hm
    exact h e ((sortKeys_perm es).mem_iff.mp he)

theorem emitting_integer (v : UInt32) : Emitting (encodeInteger v) :=
  (Emitting.writeByte _).bind fun _ => (emitting_u29 _).bind fun _ => Emitting.pure _
theorem emitting_double (v : UInt64) : Emitting (encodeDouble v) :=
  (Emitting.writeByte _).bind fun _ => (Emitting.write _).bind fun _ => Emitting.pure _
theorem emitting_marker (m : UInt8) : Emitting (encodeMarker m) := (Emitting.writeByte _).bind fun _ => Emitting.pure _

mutual
theorem emitting_enc : (v : Val) → Emitting (enc v)
  | .nil => emitting_marker _
  | .bool true => emitting_marker _
  | .bool false => emitting_marker _
  | .int false i => by
    unfold enc
    exact Emitting.ite (emitting_integer _) (emitting_double _)
  | .int true i => emitting_double _
  | .uint false i => by
    unfold enc
    exact Emitting.ite (emitting_integer _) (emitting_double _)
  | .uint true i => emitting_double _
  | .f64 _ => emitting_double _
  | .str s => (Emitting.writeByte _).bind fun _ => (emitting_utf8 s).bind fun _ => Emitting.pure _
  | .time t => (Emitting.writeByte _).bind fun _ => (Emitting.writeByte _).bind fun _ => (Emitting.write _).bind fun _ => Emitting.pure _
  | .bytes b => (Emitting.writeByte _).bind fun _ => (emitting_u29 _).bind fun _ => (Emitting.write _).bind fun _ => Emitting.pure _
  | .arr xs => (Emitting.writeByte _).bind fun _ => (emitting_u29 _).bind fun _ => (emitting_utf8 []).bind fun _ =>
      (emitting_encL xs).bind fun _ => Emitting.pure _
  | .obj kvs => emitting_entries _ _ (emitting_encF kvs)
  | .typed t kvs => emitting_entries _ _ (emitting_encF kvs)
  | .ecma _ _ => Emitting.fail
  | .shared _ => Emitting.fail
  | .other => Emitting.fail
theorem emitting_encL : (vs : List Val) → Emitting (encL vs)
  | [] => Emitting.pure _
  | v :: vs => (emitting_enc v).bind fun _ => (emitting_encL vs).bind fun _ => Emitting.pure _
theorem emitting_encF : (kvs : List (Bytes × Val)) → ∀ e ∈ encF kvs, Emitting e.2
  | [], e, he => by simp [encF] at he
  | (k, v) :: r, e, he => by
    simp only [encF, List.mem_cons] at he
    rcases he with rfl | he
    · exact emitting_enc v
    · exact emitting_encF r e he
end

theorem emitting_batch (vs : List Val) : Emitting (encodeBatch vs) := by
  induction vs with
  | nil => exact Emitting.pure _
  | cons v vs ih => exact (emitting_enc v).bind fun _ => ih

theorem decode_frag (H : Handlers) (v : Val) (hv : Spec.Amf3.Encodable v) (hn : Spec.Amf3.NoBytes v) (s : St) (rest : Bytes)
    (hd : s.data = wire v ++ rest) :
    (∃ e s', decode H s = (.err e, s')) ∨ ∃ s', decode H s = (.ok (back v), s') ∧ s'.data = rest := by
  rcases (codec_wire (rj := true) H v hv (fun _ => hn) (s.data.length + 1) (by rw [hd]; simp; omega)).frag rfl s rest hd
    with h | ⟨s', h1, h2, _⟩
  · exact .inl h
  · exact .inr ⟨s', h1, h2⟩
end Amf3
end Verif

namespace Verif.Amf

/-- What `m` does does not depend on how the reader splits its data. -/
def LimFree {α} (m : GoM St α) : Prop := ∀ s l, m { s with lim := l } = ((m s).1, { (m s).2 with lim := l })

namespace LimFree
variable {α β : Type}
theorem pure (a : α) : LimFree (Pure.pure a : GoM St α) := fun _ _ => rfl
theorem bind {m : GoM St α} {f : α → GoM St β} (h : LimFree m) (hf : ∀ a, LimFree (f a)) : LimFree (m >>= f) := by
  intro s l
  simp only [GoM.bind_apply, h s l]
  rcases m s with ⟨r, s'⟩
  cases r with
  | ok a => exact hf a s' l
  | _ => rfl
theorem ite {p : Prop} [Decidable p] {m m' : GoM St α} (h1 : LimFree m) (h2 : LimFree m') : LimFree (if p then m else m') := by
  split
  · exact h1
  · exact h2
theorem readByte : LimFree Amf.readByte := by
  intro s l
  by_cases h : s.data = []
  · rw [Safe.readByte_nil h, Safe.readByte_nil (s := { s with lim := l }) h]
  · obtain ⟨x, t, h⟩ := List.exists_cons_of_ne_nil h
    rw [Safe.readByte_cons h, Safe.readByte_cons (s := { s with lim := l }) h]
end LimFree

theorem readFull_any {n : Nat} (a b : Bytes) (hn : a.length = n) (h0 : 0 < n) (s : St) (hd : s.data = a ++ b) :
    readFull n s = (.ok a, { s with data := b }) := by
  have hne : s.data ≠ [] := by
    intro h
    rw [h] at hd
    have := List.append_eq_nil_iff.mp hd.symm
    simp [this.1] at hn
    omega
  have hl : ¬ s.data.length < n := by rw [hd]; simp; omega
  simp only [readFull, List.isEmpty_iff, hne, if_false, hl]
  rw [hd, List.take_append_of_le_length (by omega), List.drop_append_of_le_length (by omega)]
  simp [← hn]

/-- A single `Read` that returns less than asked for. -/
theorem readBytes_short (x rest : Bytes) (h2 : 2 ≤ x.length) (s : St) (hd : s.data = x ++ rest)
    (hl : s.lim (x.length + rest.length) < x.length) : ∃ s', readBytes x.length s = (.err .other, s') := by
  have hne : s.data ≠ [] := by
    rw [hd]; intro h; have := (List.append_eq_nil_iff.mp h).1; rw [this] at h2; simp at h2
  have hg : (s.data.take (s.got x.length)).length ≠ x.length := by
    rw [List.length_take]
    unfold St.got
    rw [hd]
    simp only [List.length_append]
    omega
  refine ⟨{ s with data := s.data.drop (s.got x.length) }, ?_⟩
  unfold readBytes
  simp only [GoM.bind_apply, rawRead, List.isEmpty_iff, hne, if_false, ne_eq, hg, not_false_eq_true, if_true]
  rfl
end Verif.Amf

namespace Verif.Amf3
open Verif.Amf

theorem limFree_u29 : (i : Nat) → (ret : UInt32) → LimFree (u29Loop i ret)
  | 0, _ => LimFree.readByte.bind fun _ => LimFree.pure _
  | i + 1, _ => LimFree.readByte.bind fun _ => LimFree.ite (LimFree.pure _) (limFree_u29 i _)

theorem limFree_decodeUint29 : LimFree decodeUint29 := (limFree_u29 3 0).bind fun _ => LimFree.pure _

/-- Reading a length header, whatever the reader. -/
theorem len_any (n : Nat) (h : n < 2 ^ 28) (s : St) (rest : Bytes) (hd : s.data = Spec.Amf3.u29 (2 * n + 1) ++ rest) :
    ∃ s', decodeUint29 s = (.ok (false, UInt32.ofNat n), s') ∧ s'.data = rest ∧ s'.lim = s.lim := by
  obtain ⟨s', h1, h2, h3, h4⟩ := (codec_decodeUint29 (rj := true) n h).parse { s with lim := id } rest (fun _ => Nat.le_refl _) hd (by simp)
  refine ⟨{ s' with lim := s.lim }, ?_, h2, rfl⟩
  have := limFree_decodeUint29 { s with lim := id } s.lim
  rw [h1] at this
  exact this
end Verif.Amf3
