import Verif.Spec.AmfReject
import Verif.Lemmas.Amf0
import Verif.Lemmas.Amf3Codec
/-!
# Which values the encoders accept
-/
namespace Verif.Amf
open Verif

/-- The result is a count if `P` holds and an error otherwise. -/
def Out {α} (P : Prop) (r : Res α) : Prop := (P ∧ ∃ n, r = .ok n) ∨ (¬ P ∧ ∃ e, r = .err e)

/-- What the action does is decided by `P`, as long as writing works. -/
def Decides {α} (P : Prop) (m : GoM Sink α) : Prop := ∃ cs r, Emits m cs r ∧ Out P r

/-- The same, and the first thing written is the byte `b`. -/
def Starts {α} (b : UInt8) (P : Prop) (m : GoM Sink α) : Prop := ∃ cs r, Emits m ([b] :: cs) r ∧ Out P r

theorem Starts.decides {α} {b P} {m : GoM Sink α} (h : Starts b P m) : Decides P m := by
  obtain ⟨cs, r, h1, h2⟩ := h
  exact ⟨_, r, h1, h2⟩

theorem Out.congr {α P Q} {r : Res α} (h : Out P r) (e : P ↔ Q) : Out Q r := by
  unfold Out at *
  rw [← e]
  exact h

theorem Decides.congr {α P Q} {m : GoM Sink α} (h : Decides P m) (e : P ↔ Q) : Decides Q m := by
  obtain ⟨cs, r, h1, h2⟩ := h
  exact ⟨cs, r, h1, h2.congr e⟩

theorem Starts.congr {α b P Q} {m : GoM Sink α} (h : Starts b P m) (e : P ↔ Q) : Starts b Q m := by
  obtain ⟨cs, r, h1, h2⟩ := h
  exact ⟨cs, r, h1, h2.congr e⟩

theorem Decides.of {α} {m : GoM Sink α} {cs n} (h : Emits m cs (.ok n)) : Decides True m := ⟨cs, _, h, .inl ⟨trivial, n, rfl⟩⟩

theorem Decides.bind {α β P Q} {m : GoM Sink α} {f : α → GoM Sink β} (h : Decides P m) (h' : ∀ a, Decides Q (f a)) :
    Decides (P ∧ Q) (m >>= f) := by
  obtain ⟨cs, r, h1, h2⟩ := h
  rcases h2 with ⟨hp, n, rfl⟩ | ⟨hp, e, rfl⟩
  · obtain ⟨ds, r', h3, h4⟩ := h' n
    exact ⟨_, r', h1.bind h3, h4.congr (by simp [hp])⟩
  · exact ⟨cs, _, h1.bind_err, .inr ⟨fun x => hp x.1, e, rfl⟩⟩

theorem Decides.then {α β Q} {m : GoM Sink α} {f : α → GoM Sink β} (h : Decides True m) (h' : ∀ a, Decides Q (f a)) :
    Decides Q (m >>= f) := (h.bind h').congr (by simp)

theorem Decides.map {α β P} {m : GoM Sink α} {g : α → β} (h : Decides P m) : Decides P (m >>= fun x => Pure.pure (g x)) :=
  (h.bind fun a => Decides.of (Emits.pure (g a))).congr (by simp)

theorem Decides.pure {α} (a : α) : Decides True (Pure.pure a : GoM Sink α) := .of (Emits.pure a)
theorem Decides.write (b : Bytes) : Decides True (Sink.write b) := .of (Emits.write b)
theorem Decides.fail {α P} (e : Err) (h : ¬ P) : Decides P (GoM.fail e : GoM Sink α) := ⟨[], _, Emits.fail e, .inr ⟨h, e, rfl⟩⟩

theorem Starts.byte {α Q} (b : UInt8) {f : Unit → GoM Sink α} (h : Decides Q (f ())) : Starts b Q (writeByte b >>= f) := by
  obtain ⟨ds, r, h1, h2⟩ := h
  exact ⟨ds, r, (Emits.writeByte b).bind h1, h2⟩

/-- What a writer that works has got then. -/
theorem Decides.run {α P} {m : GoM Sink α} (h : Decides P m) (w : Sink) (hw : w.Reliable) :
    ((∃ n, (m w).1 = .ok n) ↔ P) ∧ (¬ P → ∃ e, (m w).1 = .err e) := by
  obtain ⟨cs, r, h1, h2⟩ := h
  rw [h1.reliable w hw]
  rcases h2 with ⟨hp, n, rfl⟩ | ⟨hp, e, rfl⟩
  · exact ⟨⟨fun _ => hp, fun _ => ⟨n, rfl⟩⟩, fun h => absurd hp h⟩
  · exact ⟨⟨fun ⟨n, h⟩ => (by cases h), fun h => absurd h hp⟩, fun _ => ⟨e, rfl⟩⟩

theorem Starts.out {α b P} {m : GoM Sink α} (h : Starts b P m) (w : Sink) (hw : w.Reliable) :
    ∃ c, (m w).2.out = w.out ++ b :: c := by
  obtain ⟨cs, r, h1, -⟩ := h
  rw [h1.reliable w hw]
  exact ⟨cs.flatten, by simp⟩

end Verif.Amf

namespace Verif.Amf0
open Verif Verif.Amf Verif.Spec.Amf

theorem dec_optMarker (m : UInt8) (b : Bool) : Decides True (optMarker m b) := by
  cases b
  · exact .pure _
  · exact (Decides.of (Emits.writeByte m)).map (g := fun _ => 1)

theorem dec_string (s : Bytes) (b : Bool) : Decides True (encodeString s b) :=
  (dec_optMarker _ _).then fun _ => (Decides.write _).then fun _ => (Decides.write _).then fun _ => .pure _

theorem dec_longString (s : Bytes) (b : Bool) : Decides True (encodeLongString s b) :=
  (dec_optMarker _ _).then fun _ => (Decides.write _).then fun _ => (Decides.write _).then fun _ => .pure _

theorem dec_number (f : UInt64) : Decides True (encodeNumber f) := .of (emits_number f)

theorem dec_bytes : (b : Bytes) → Decides True (encBytes b)
  | [] => .pure _
  | _ :: bs => (dec_number _).then fun _ => (dec_bytes bs).map

mutual
theorem dec_enc : (v : Val) → Tree v → Decides (Supported false v) (enc v)
  | .nil, _ => .congr (.of (emits_marker 5)) (by simp [Supported])
  | .bool b, _ => .congr (.of (emits_bool b)) (by simp [Supported])
  | .f64 f, _ => .congr (dec_number f) (by simp [Supported])
  | .int w i, _ => .congr (dec_number _) (by cases w <;> simp [Supported])
  | .uint w i, _ => .congr (dec_number _) (by simp [Supported])
  | .str s, _ => by
    refine .congr (P := True) ?_ (by simp [Supported])
    unfold enc
    split
    · exact dec_string _ _
    · exact dec_longString _ _
  | .bytes b, _ => .congr (P := True) ((Starts.byte 10 ((Decides.write _).then fun _ => (dec_bytes b).map)).decides) (by simp [Supported])
  | .time t, _ => .congr (P := True) ((Starts.byte 11 ((dec_number _).then fun _ => (Decides.write _).then fun _ => .pure _)).decides) (by simp [Supported])
  | .arr xs, h => (dec_arr xs h).decides
  | .obj kvs, h => (dec_obj kvs h).decides
  | .typed t kvs, h => (dec_typed t kvs h).decides
  | .ecma _ _, _ => .fail _ (by simp [Supported])
  | .other, _ => .fail _ (by simp [Supported])
theorem dec_arr : (xs : List Val) → Tree (.arr xs) → Starts 10 (Supported false (.arr xs)) (enc (.arr xs))
  | xs, h => Starts.byte 10 ((Decides.write _).then fun _ => (dec_encL xs h).map)
theorem dec_obj : (kvs : List (Bytes × Val)) → Tree (.obj kvs) → Starts 3 (Supported false (.obj kvs)) (enc (.obj kvs))
  | kvs, h => by
    show Starts 3 _ ((writeByte 3 >>= fun _ => pure 1) >>= fun n => encObj kvs >>= fun m => pure (n + m))
    rw [GoM.bind_assoc']
    exact Starts.byte 3 ((Decides.pure _).then fun _ => (dec_encObj kvs h).map)
theorem dec_typed : (t : Bytes) → (kvs : List (Bytes × Val)) → Tree (.typed t kvs) → Starts 16 (Supported false (.typed t kvs)) (enc (.typed t kvs))
  | t, kvs, h => Starts.byte 16 ((dec_string _ _).then fun _ => (dec_encObj kvs h).map)
theorem dec_encL : (xs : List Val) → TreeL xs → Decides (SupportedL false xs) (encL xs)
  | [], _ => .pure _
  | v :: vs, h => (dec_enc v h.1).bind fun _ => (dec_encL vs h.2).map
theorem dec_encObj : (kvs : List (Bytes × Val)) → TreeF kvs → Decides (SupportedF false kvs) (encObj kvs)
  | [], _ => (dec_string _ _).then fun n => (Decides.of (Emits.writeByte 9)).map (g := fun _ => n + 1)
  | (k, v) :: r, h => (dec_string _ _).then fun _ => (dec_enc v h.1).bind fun _ => (dec_encObj r h.2).map
end

end Verif.Amf0

namespace Verif.Amf3
open Verif Verif.Amf Verif.Spec.Amf

theorem dec_utf8 (s : Bytes) (h : s.length < 2 ^ 28) : Decides True (encodeUtf8 s) := .of (emits_utf8 s h)
theorem dec_double (f : UInt64) : Decides True (encodeDouble f) := .of (emits_double f)

theorem dec_runAll (l : List (GoM Sink Nat × Prop)) (h : ∀ e ∈ l, Decides e.2 e.1) (n : Nat) :
    Decides (∀ e ∈ l, e.2) (runAll n (l.map (·.1))) := by
  induction l generalizing n with
  | nil => exact .congr (.pure n) (by simp)
  | cons e l ih =>
    exact .congr ((h e (by simp)).bind fun m => ih (fun e he => h e (by simp [he])) (n + m)) (by simp)

theorem supportedF_iff (b : Bool) : (kvs : List (Bytes × Val)) → (SupportedF b kvs ↔ ∀ e ∈ kvs, Supported b e.2)
  | [] => by simp [SupportedF]
  | (k, v) :: r => by simp [SupportedF, supportedF_iff b r]

theorem shortF_key : (kvs : List (Bytes × Val)) → ShortF kvs → ∀ e ∈ kvs, e.1.length < 2 ^ 28
  | [], _ => by simp
  | (k, v) :: r, h => by
    intro e he
    rcases List.mem_cons.mp he with rfl | he
    · exact h.1
    · exact shortF_key r h.2.2 e he

theorem dec_entries (t : Bytes) (ht : t.length < 2 ^ 28) (kvs : List (Bytes × Val)) (hl : kvs.length < 2 ^ 25)
    (hk : ∀ e ∈ kvs, e.1.length < 2 ^ 28) (h : ∀ e ∈ kvs, Decides (Supported true e.2) (enc e.2)) :
    Starts 10 (SupportedF true kvs) (encodeEntries t (encF kvs)) := by
  have hs1 : sortKeys (encF kvs) = (sortKeys kvs).map fun e => (e.1, enc e.2) := by
    rw [encF_map, sortKeys_map]
  have hp := sortKeys_perm kvs
  have hlen := hp.length_eq
  unfold encodeEntries
  rw [hs1]
  simp only [List.map_map, List.length_map, Function.comp_def]
  have hu := emits_writeUint29 ((3 : UInt32) ||| (UInt32.ofNat (sortKeys kvs).length <<< 4)) (by rw [hdr _ (by omega)]; omega)
  have h1 := fun n => dec_runAll ((sortKeys kvs).map fun e => (encodeUtf8 e.1, True))
    (by simp only [List.mem_map]; rintro _ ⟨e, he, rfl⟩; exact dec_utf8 _ (hk e (hp.mem_iff.mp he))) n
  have h2 := fun n => dec_runAll ((sortKeys kvs).map fun e => (enc e.2, Supported true e.2))
    (by simp only [List.mem_map]; rintro _ ⟨e, he, rfl⟩; exact h e (hp.mem_iff.mp he)) n
  simp only [List.map_map, Function.comp_def] at h1 h2
  refine Starts.byte 10 ((Decides.of hu).then fun _ => (dec_utf8 t ht).then fun _ => ?_)
  refine .congr ((h1 _).bind fun n => h2 n) ?_
  rw [supportedF_iff]
  simp only [List.mem_map, forall_exists_index, and_imp, forall_apply_eq_imp_iff₂]
  simp only [hp.mem_iff]
  simp

theorem dec_encodeInteger (v : UInt32) : Starts 4 (v.toNat < 2 ^ 29) (encodeInteger v) := by
  by_cases h : v.toNat < 2 ^ 29
  · exact .congr (Starts.byte 4 (Decides.of (emits_writeUint29 v h)).map) (by simp [h])
  · refine Starts.byte 4 (Decides.map ?_)
    rw [writeUint29_large v h]
    exact .fail _ h

mutual
theorem dec_enc : (v : Val) → Tree v → Short v → Decides (Supported true v) (enc v)
  | .nil, _, _ => .congr (P := True) (.of (Emits.writeByte 1).map) (by simp [Supported])
  | .bool true, _, _ => .congr (P := True) (.of (Emits.writeByte 3).map) (by simp [Supported])
  | .bool false, _, _ => .congr (P := True) (.of (Emits.writeByte 2).map) (by simp [Supported])
  | .f64 f, _, _ => .congr (dec_double f) (by simp [Supported])
  | .int false i, _, _ => by
    unfold enc
    split
    · refine .congr (dec_encodeInteger _).decides ?_
      rw [UInt32.toNat_ofNat']
      simp only [Supported, forall_const]
      omega
    · exact .congr (dec_double _) (by simp only [Supported, forall_const, true_iff]; omega)
  | .int true i, _, _ => .congr (dec_double _) (by simp [Supported])
  | .uint false n, _, _ => by
    unfold enc
    split
    · refine .congr (dec_encodeInteger _).decides ?_
      rw [UInt32.toNat_ofNat']
      simp only [Supported, iff_true]
      omega
    · exact .congr (dec_double _) (by simp [Supported])
  | .uint true n, _, _ => .congr (dec_double _) (by simp [Supported])
  | .str s, _, hs => .congr (Starts.byte 6 (dec_utf8 s hs).map).decides (by simp [Supported])
  | .bytes b, _, hs => .congr (P := True) (Starts.byte 12 ((Decides.of (emits_encodeUint29 _ hs)).then fun _ => (Decides.write b).map)).decides (by simp [Supported])
  | .time t, _, _ => .congr (P := True) (Starts.byte 8 (Starts.byte 1 (Decides.write _).map).decides).decides (by simp [Supported])
  | .arr xs, h, hs => (dec_arr xs h hs).decides
  | .obj kvs, h, hs => (dec_obj kvs h hs).decides
  | .typed t kvs, h, hs => (dec_typed t kvs h hs).decides
  | .ecma _ _, _, _ => .fail _ (by simp [Supported])
  | .other, _, _ => .fail _ (by simp [Supported])
theorem dec_arr : (xs : List Val) → Tree (.arr xs) → Short (.arr xs) → Starts 9 (Supported true (.arr xs)) (enc (.arr xs))
  | xs, h, hs => Starts.byte 9 ((Decides.of (emits_encodeUint29 _ hs.1)).then fun _ => (dec_utf8 [] (by simp)).then fun _ => (dec_encL xs h hs.2).map)
theorem dec_obj : (kvs : List (Bytes × Val)) → Tree (.obj kvs) → Short (.obj kvs) → Starts 10 (Supported true (.obj kvs)) (enc (.obj kvs))
  | kvs, h, hs => dec_entries [] (by simp) kvs hs.1 (shortF_key kvs hs.2) (dec_encF kvs h hs.2)
theorem dec_typed : (t : Bytes) → (kvs : List (Bytes × Val)) → Tree (.typed t kvs) → Short (.typed t kvs) →
    Starts 10 (Supported true (.typed t kvs)) (enc (.typed t kvs))
  | t, kvs, h, hs => dec_entries t hs.1 kvs hs.2.1 (shortF_key kvs hs.2.2) (dec_encF kvs h hs.2.2)
theorem dec_encL : (xs : List Val) → TreeL xs → ShortL xs → Decides (SupportedL true xs) (encL xs)
  | [], _, _ => .pure _
  | v :: vs, h, hs => (dec_enc v h.1 hs.1).bind fun _ => (dec_encL vs h.2 hs.2).map
theorem dec_encF : (kvs : List (Bytes × Val)) → TreeF kvs → ShortF kvs → ∀ e ∈ kvs, Decides (Supported true e.2) (enc e.2)
  | [], _, _, _, he => by simp at he
  | (k, v) :: r, h, hs, e, he => by
    rcases List.mem_cons.mp he with rfl | he
    · exact dec_enc v h.1 hs.2.1
    · exact dec_encF r h.2 hs.2.2 e he
end

end Verif.Amf3
