import Verif.Lemmas.Amf0Safe
import Verif.Lemmas.Amf3Codec
/-! # Lemmas about DecodeBatch / EncodeBatch and whole-value decoding -/
namespace Verif.Amf

/-- `d` parses each value of a class from its bytes, as `Codec` does for fixed values. -/
structure ValCodec (d : GoM St Val) (P : Val → Prop) (wr : Val → Bytes) (bk : Val → Val) (ee : Val → Bool) : Prop where
  ne : ∀ v, P v → wr v ≠ []
  parse : ∀ v, P v → ∀ s rest, s.Contig → s.data = wr v ++ rest →
    (ee v = true → s.eofOnEmpty = true → rest ≠ []) →
    ∃ s', d s = (.ok (bk v), s') ∧ s'.data = rest ∧ s'.eofOnEmpty = s.eofOnEmpty ∧ s'.lim = s.lim
  eof : ∀ s, s.data = [] → ∃ s', d s = (.err .eof, s')

variable {d : GoM St Val} {P : Val → Prop} {wr : Val → Bytes} {bk : Val → Val} {ee : Val → Bool}

/-- All the values of a batch are returned, in order, without an error. -/
theorem ValCodec.batch (h : ValCodec d P wr bk ee) (vs : List Val) (hv : ∀ v ∈ vs, P v) (fuel : Nat)
    (hf : vs.length < fuel) (ret : List Val) (s : St) (hs : s.Contig) (hd : s.data = vs.flatMap wr)
    (hl : s.eofOnEmpty = true → ∀ v, vs.getLast? = some v → ee v = false) :
    ∃ s', Amf3.batchLoop d fuel ret s = (.ok (ret ++ vs.map bk, none), s') := by
  induction vs generalizing fuel ret s with
  | nil =>
    obtain ⟨f, rfl⟩ : ∃ f, fuel = f + 1 := ⟨fuel - 1, by simp at hf; omega⟩
    obtain ⟨s', he⟩ := h.eof s (by simpa using hd)
    exact ⟨s', by simp [Amf3.batchLoop, he]⟩
  | cons v vs ih =>
    obtain ⟨f, rfl⟩ : ∃ f, fuel = f + 1 := ⟨fuel - 1, by simp at hf; omega⟩
    obtain ⟨s1, h1, h2, h3, h4⟩ := h.parse v (hv v (by simp)) s (vs.flatMap wr) hs (by simpa using hd) (by
      intro he heof hr
      cases vs with
      | nil => have := hl heof v (by simp); rw [he] at this; exact absurd this (by simp)
      | cons w ws =>
        simp only [List.flatMap_cons] at hr
        exact h.ne w (hv w (by simp)) (List.append_eq_nil_iff.mp hr).1)
    obtain ⟨s', h5⟩ := ih (fun w hw => hv w (by simp [hw])) f (by simp at hf; omega) (ret ++ [bk v]) s1
      (by unfold St.Contig; rw [h4]; exact hs) h2 (by
        intro heof w hw
        refine hl (by rw [← h3]; exact heof) w ?_
        cases vs with
        | nil => simp at hw
        | cons x xs => simpa using hw)
    exact ⟨s', by simp [Amf3.batchLoop, h1, h5]⟩

/-- On a truncated batch exactly the complete values are returned. -/
theorem ValCodec.batch_trunc (h : ValCodec d P wr bk ee)
    (hrej : ∀ v, P v → ∀ s q, s.Contig → s.eofOnEmpty = false → TraitsOk s → q ≠ [] → wr v = s.data ++ q →
      ∃ e s', d s = (.err e, s'))
    (hok : ∀ s v s', TraitsOk s → d s = (.ok v, s') → TraitsOk s')
    (vs : List Val) (hv : ∀ v ∈ vs, P v) (fuel : Nat)
    (ret : List Val) (s : St) (hs : s.Contig) (hb : s.eofOnEmpty = false) (ht : TraitsOk s) (q : Bytes)
    (hf : s.data.length < fuel) (hd : vs.flatMap wr = s.data ++ q) :
    ∃ k e s', Amf3.batchLoop d fuel ret s = (.ok (ret ++ (vs.take k).map bk, e), s') ∧ k ≤ vs.length ∧
      ((vs.take k).flatMap wr).length ≤ s.data.length ∧
      (k < vs.length → s.data.length < ((vs.take (k + 1)).flatMap wr).length) := by
  induction vs generalizing fuel ret s with
  | nil =>
    obtain ⟨f, rfl⟩ : ∃ f, fuel = f + 1 := ⟨fuel - 1, by omega⟩
    have hd' : s.data = [] := by
      simp only [List.flatMap_nil] at hd
      exact (List.append_eq_nil_iff.mp hd.symm).1
    obtain ⟨s', he⟩ := h.eof s hd'
    exact ⟨0, none, s', by simp [Amf3.batchLoop, he], by simp, by simp, by simp⟩
  | cons v vs ih =>
    obtain ⟨f, rfl⟩ : ∃ f, fuel = f + 1 := ⟨fuel - 1, by omega⟩
    simp only [List.flatMap_cons] at hd
    rcases append_eq_append_split hd with ⟨p', hp, hc⟩ | ⟨q', hq', ha, rfl⟩
    · obtain ⟨s1, h1, h2, h3, h4⟩ := h.parse v (hv v (by simp)) s p' hs hp (by simp [hb])
      have hlen : 0 < (wr v).length := List.length_pos_iff.mpr (h.ne v (hv v (by simp)))
      have hsl : s.data.length = (wr v).length + p'.length := by rw [hp]; simp
      obtain ⟨k, e, s', h5, h6, h7, h8⟩ := ih (fun w hw => hv w (by simp [hw])) f (ret ++ [bk v]) s1
        (by unfold St.Contig; rw [h4]; exact hs) (by rw [h3]; exact hb) (hok s _ s1 ht h1)
        (by rw [h2]; omega) (by rw [h2]; exact hc)
      refine ⟨k + 1, e, s', by simp [Amf3.batchLoop, h1, h5], by simp; omega, ?_, ?_⟩
      · rw [h2] at h7
        rw [List.take_succ_cons, List.flatMap_cons, List.length_append, hsl]
        omega
      · intro hk
        have := h8 (by simpa using hk)
        rw [h2] at this
        rw [List.take_succ_cons, List.flatMap_cons, List.length_append, hsl]
        omega
    · obtain ⟨e, s', he⟩ := hrej v (hv v (by simp)) s q' hs hb ht hq' ha
      have hlt : s.data.length < (wr v).length := by
        rw [ha]; have := List.length_pos_iff.mpr hq'; simp; omega
      cases e with
      | eof => exact ⟨0, none, s', by simp [Amf3.batchLoop, he], by simp, by simp, by simpa using hlt⟩
      | _ => exact ⟨0, some _, s', by simp [Amf3.batchLoop, he]; rfl, by simp, by simp, by simpa using hlt⟩

/-- DecodeBatch ends. -/
theorem batch_terminates {pan : Bool} (hsafe : ∀ N, Safe pan N 1 d) (fuel : Nat) (ret : List Val) (s : St)
    (ht : TraitsOk s) (hf : s.data.length < fuel) :
    (Amf3.batchLoop d fuel ret s).1 ≠ .diverge ∧
    ((Amf3.batchLoop d fuel ret s).1 = .panic → pan = true ∧ HasRef s.data) ∧
    ∀ e, (Amf3.batchLoop d fuel ret s).1 ≠ .err e := by
  induction fuel generalizing ret s with
  | zero => omega
  | succ n ih =>
    obtain ⟨h1, h2, h3, h4, h5⟩ := hsafe s.data.length s (Nat.le_refl _) ht
    unfold Amf3.batchLoop
    rcases hm : d s with ⟨r, s'⟩
    rw [hm] at h1 h2 h3 h4 h5
    cases r with
    | ok v =>
      have := h4 v rfl
      simp only at this h5 ⊢
      obtain ⟨a, b, c⟩ := ih (ret ++ [v]) s' h5 (by omega)
      exact ⟨a, fun hp => ⟨(b hp).1, (b hp).2.mono h3⟩, c⟩
    | err e => cases e <;> simp
    | panic => simpa using h2
    | diverge => simp at h1

end Verif.Amf

namespace Verif.Amf0
open Verif.Amf Verif.Spec.Amf0

theorem wire_ne' (v : Val) (h : Encodable v) : wire v ≠ [] := by
  cases v <;> simp [Encodable] at h <;> simp [wire, number]
  split <;> simp

theorem valCodec : ValCodec decode Encodable wire numbers endsEmpty where
  ne := wire_ne'
  parse v hv s rest hs hd he :=
    (codec_wire (rj := false) v hv (s.data.length + 1) (by rw [hd]; simp; omega)).parse s rest hs hd he
  eof s hd := ⟨s, by
    show dec (s.data.length + 1) s = _
    rw [dec_succ, GoM.bind_apply, Safe.readByte_nil hd]⟩

theorem decode_rejects (v : Val) (hv : Encodable v) (s : St) (q : Bytes) (hs : s.Contig) (ht : TraitsOk s)
    (hd : wire v = s.data ++ q) (hq : q ≠ [] ∨ (endsEmpty v = true ∧ s.eofOnEmpty = true)) :
    ∃ e s', decode s = (.err e, s') := by
  obtain ⟨e, s', h⟩ := (codec_wire (rj := true) v hv ((wire v).length + 1) (by omega)).reject rfl s s.data q hs rfl hd hq
  refine ⟨e, s', ?_⟩
  have hlen : s.data.length ≤ (wire v).length := by rw [hd]; simp
  have h1 := (safe_dec (N := s.data.length) (s.data.length + 1) (by omega) s (Nat.le_refl _) ht).1
  have := dec_le (n := s.data.length + 1) (n' := (wire v).length + 1) (by omega) s h1
  show dec (s.data.length + 1) s = _
  rw [← this, h]

theorem decode_traitsOk (s : St) (v : Val) (s' : St) (ht : TraitsOk s) (h : decode s = (.ok v, s')) : TraitsOk s' := by
  have := (safe_decode (N := s.data.length) s (Nat.le_refl _) ht).2.2.2.2
  rwa [h] at this

theorem emits_batch (vs : List Val) (h : ∀ v ∈ vs, Encodable v) :
    ∃ cs, cs.flatten = vs.flatMap wire ∧ Emits (encodeBatch vs) cs (.ok ()) := by
  induction vs with
  | nil => exact ⟨[], rfl, Emits.pure ()⟩
  | cons v vs ih =>
    obtain ⟨cs, h1, h2⟩ := emits_wire v (h v (by simp))
    obtain ⟨ds, h3, h4⟩ := ih (fun w hw => h w (by simp [hw]))
    exact ⟨cs ++ ds, by simp [h1, h3], h2.bind h4⟩

mutual
theorem numbers_plain : (v : Val) → Plain v → numbers v = v
  | .nil, _ => rfl
  | .bool _, _ => rfl
  | .f64 _, _ => rfl
  | .str _, _ => rfl
  | .arr xs, h => by
    simp only [Plain] at h
    simp only [numbers, numbers_plainL xs h]
  | .obj kvs, h => by
    simp only [Plain] at h
    simp only [numbers, numbers_plainF kvs h]
  | .typed t kvs, h => by
    simp only [Plain] at h
    simp only [numbers, numbers_plainF kvs h]
  | .int _ _, h | .uint _ _, h | .bytes _, h | .time _, h | .ecma _ _, h | .shared _, h | .other, h => by
    simp [Plain] at h
theorem numbers_plainL : (vs : List Val) → PlainL vs → numbersL vs = vs
  | [], _ => rfl
  | v :: vs, h => by
    simp only [PlainL] at h
    simp only [numbersL, numbers_plain v h.1, numbers_plainL vs h.2]
theorem numbers_plainF : (kvs : List (Bytes × Val)) → PlainF kvs → numbersF kvs = kvs
  | [], _ => rfl
  | (k, v) :: r, h => by
    simp only [PlainF] at h
    simp only [numbersF, numbers_plain v h.1, numbers_plainF r h.2]
end

end Verif.Amf0

namespace Verif.Amf3
open Verif.Amf Verif.Spec.Amf3

theorem wire_ne (v : Val) (h : Encodable v) : wire v ≠ [] := by
  cases v with
  | int b i => cases b <;> simp [wire]; split <;> simp
  | uint b i => cases b <;> simp [wire]; split <;> simp
  | _ => simp [Encodable] at h <;> simp [wire]

theorem valCodec (H : Handlers) : ValCodec (decode H) Encodable wire back (fun _ => false) where
  ne := wire_ne
  parse v hv s rest hs hd he :=
    (codec_wire (rj := false) H v hv (by simp) (s.data.length + 1) (by rw [hd]; simp; omega)).parse s rest hs hd (by simp)
  eof s hd := ⟨s, by
    show dec H (s.data.length + 1) s = _
    rw [dec_succ, GoM.bind_apply, Safe.readByte_nil hd]⟩

theorem decode_rejects (H : Handlers) (v : Val) (hv : Encodable v) (hn : NoBytes v) (s : St) (q : Bytes) (hs : s.Contig)
    (ht : TraitsOk s) (hd : wire v = s.data ++ q) (hq : q ≠ []) : ∃ e s', decode H s = (.err e, s') := by
  obtain ⟨e, s', h⟩ := (codec_wire (rj := true) H v hv (fun _ => hn) ((wire v).length + 1) (by omega)).reject rfl s s.data q hs rfl hd (.inl hq)
  refine ⟨e, s', ?_⟩
  have hlen : s.data.length ≤ (wire v).length := by rw [hd]; simp
  have h1 := (safe_dec (pan := false) (N := s.data.length) H (s.data.length + 1) (by omega) s (Nat.le_refl _) ht).1
  have := dec_le H (n := s.data.length + 1) (n' := (wire v).length + 1) (by omega) s h1
  show dec H (s.data.length + 1) s = _
  rw [← this, h]

theorem decode_traitsOk (H : Handlers) (s : St) (v : Val) (s' : St) (ht : TraitsOk s) (h : decode H s = (.ok v, s')) :
    TraitsOk s' := by
  have := (safe_decode (pan := false) (N := s.data.length) H s (Nat.le_refl _) ht).2.2.2.2
  rwa [h] at this

theorem emits_batch (vs : List Val) (h : ∀ v ∈ vs, Encodable v) :
    ∃ cs, cs.flatten = vs.flatMap wire ∧ Emits (encodeBatch vs) cs (.ok ()) := by
  induction vs with
  | nil => exact ⟨[], rfl, Emits.pure ()⟩
  | cons v vs ih =>
    obtain ⟨cs, h1, h2⟩ := emits_wire v (h v (by simp))
    obtain ⟨ds, h3, h4⟩ := ih (fun w hw => h w (by simp [hw]))
    exact ⟨cs ++ ds, by simp [h1, h3], h2.bind h4⟩

end Verif.Amf3
