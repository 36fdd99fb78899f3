import Verif.Props.AmfNumber
/-!
# Property C174: a date that is sent on stays the same

The meaning of float64 patterns is specified in `Verif/Spec/Float64.lean`.
-/
namespace Verif.Props
open Verif Verif.Amf Verif.Amf3 Verif.Spec.Amf3

theorem isInt_value {b : UInt64} {i j : Int} (hi : Spec.F64.IsInt b i) (hj : Spec.F64.IsInt b j) : i = j := by
  have h : i * 2 ^ 1074 = j * 2 ^ 1074 := hi.2.symm.trans hj.2
  exact Int.eq_of_mul_eq_mul_right (Int.pow_ne_zero (by decide)) h

theorem date_wire (sec : Int) : (Amf3.encode (.time sec) Sink.mem).1 = .ok 10 ∧
    (Amf3.encode (.time sec) Sink.mem).2.out = [8, 1] ++ be64 (F64.mul1000 (F64.ofInt sec)) := by
  have hE : Emits (Amf3.encode (.time sec)) _ _ :=
    (Emits.writeByte 8).bind ((Emits.writeByte 1).bind ((Emits.write (be64 (F64.mul1000 (F64.ofInt sec)))).map))
  obtain ⟨h1, h2⟩ := hE.mem
  exact ⟨h1, by simpa using h2⟩

/-- What is sent on for a whole number of milliseconds: the whole seconds of it. -/
theorem date_relayed (H : Amf3.Handlers) (f : UInt64) (n : Int) (hf : Spec.F64.IsInt f n) (hn : n.natAbs ≤ 8640000000000000)
    (s : St) (rest : Bytes) (hc : s.Contig) (hd : s.data = [8, 1] ++ be64 f ++ rest) :
    ∃ v s' g, Amf3.decode H s = (.ok v, s') ∧ s'.data = rest ∧ (Amf3.encode v Sink.mem).1 = .ok 10 ∧
      (Amf3.encode v Sink.mem).2.out = [8, 1] ++ be64 g ∧ Spec.F64.IsInt g (Int.tdiv n 1000 * 1000) := by
  obtain ⟨s', h1, h2, _⟩ := decodeDate_lit H f s rest hc (by simpa [u29] using hd)
  rw [F64.seconds_isInt f n hf hn] at h1
  have hb : (Int.tdiv n 1000 * 1000).natAbs ≤ 2 ^ 53 := by
    have : (Int.tdiv n 1000 * 1000).natAbs ≤ n.natAbs := by
      rw [Int.natAbs_mul, Int.natAbs_tdiv]
      exact Nat.div_mul_le_self _ _
    omega
  obtain ⟨e1, e2⟩ := date_wire (Int.tdiv n 1000)
  rw [F64.mul1000_int _ hb] at e2
  exact ⟨_, s', _, h1, h2, e1, e2, F64.ofInt_isInt _ hb⟩

/-- C174 (partial): a date at a whole second, whatever decoder and encoder it passes, is sent on as the same date.  Missing: the
milliseconds, and what is no date, see below. -/
theorem C174_dates_partial (H : Amf3.Handlers) (f : UInt64) (n : Int) (hf : Spec.F64.IsInt f n) (hn : n.natAbs ≤ 8640000000000000) (h : n % 1000 = 0)
    (s : St) (rest : Bytes) (hc : s.Contig) (hd : s.data = [8, 1] ++ be64 f ++ rest) :
    ∃ v s' g, Amf3.decode H s = (.ok v, s') ∧ s'.data = rest ∧ (Amf3.encode v Sink.mem).1 = .ok 10 ∧
      (Amf3.encode v Sink.mem).2.out = [8, 1] ++ be64 g ∧ Spec.F64.IsInt g n := by
  have e : Int.tdiv n 1000 * 1000 = n := Int.tdiv_mul_cancel (Int.dvd_of_emod_eq_zero h)
  have := date_relayed H f n hf hn s rest hc hd
  rwa [e] at this

example : ∃ v s' g, Amf3.decode (fun _ => none) (St.reader ([8, 1] ++ be64 (F64.ofInt (-8640000000000000)) ++ [])) = (.ok v, s') ∧ s'.data = [] ∧
    (Amf3.encode v Sink.mem).1 = .ok 10 ∧ (Amf3.encode v Sink.mem).2.out = [8, 1] ++ be64 g ∧ Spec.F64.IsInt g (-8640000000000000) :=
  C174_dates_partial (fun _ => none) _ (-8640000000000000) (F64.ofInt_isInt _ (by decide)) (by decide) (by decide) _ [] (fun _ => Nat.le_refl _) rfl

/-- C174 fails for every date that is not at a whole second: another date is sent on, without an error. -/
theorem C174_milliseconds_refuted (H : Amf3.Handlers) (f : UInt64) (n : Int) (hf : Spec.F64.IsInt f n) (hn : n.natAbs ≤ 8640000000000000) (h : n % 1000 ≠ 0)
    (s : St) (rest : Bytes) (hc : s.Contig) (hd : s.data = [8, 1] ++ be64 f ++ rest) :
    ∃ v s' g, Amf3.decode H s = (.ok v, s') ∧ s'.data = rest ∧ (Amf3.encode v Sink.mem).1 = .ok 10 ∧
      (Amf3.encode v Sink.mem).2.out = [8, 1] ++ be64 g ∧ ¬ Spec.F64.IsInt g n := by
  obtain ⟨v, s', g, h1, h2, h3, h4, h5⟩ := date_relayed H f n hf hn s rest hc hd
  refine ⟨v, s', g, h1, h2, h3, h4, fun h6 => ?_⟩
  have := isInt_value h5 h6
  omega

example : ∃ v s' g, Amf3.decode (fun _ => none) (St.reader ([8, 1] ++ be64 (F64.ofInt 1700000000999) ++ [])) = (.ok v, s') ∧ s'.data = [] ∧
    (Amf3.encode v Sink.mem).1 = .ok 10 ∧ (Amf3.encode v Sink.mem).2.out = [8, 1] ++ be64 g ∧ ¬ Spec.F64.IsInt g 1700000000999 :=
  C174_milliseconds_refuted (fun _ => none) _ 1700000000999 (F64.ofInt_isInt _ (by decide)) (by decide) (by decide) _ [] (fun _ => Nat.le_refl _) rfl

theorem not_finite {f : UInt64} (h : Spec.F64.expo f = 2047) : F64.toInt64 (F64.div1000 f) = -(2 ^ 63) := by
  have hf : F64.finite f = false := by
    unfold Spec.F64.expo at h
    simp only [F64.finite, decide_eq_false_iff_not, Decidable.not_not]
    omega
  have e : F64.div1000 f = f := by simp [F64.div1000, hf]
  rw [e]
  simp [F64.toInt64, hf]

theorem remote_date : F64.mul1000 (F64.ofInt (-(2 ^ 63))) = 14159106122220306432 ∧ Spec.F64.IsInt 14159106122220306432 (-(2 ^ 63) * 1000) := by
  refine ⟨by decide +kernel, ?_⟩
  unfold Spec.F64.IsInt
  decide +kernel

/-- C174 fails for every number that is no date (NaN, which Flash sends for an invalid date, and the infinities): it is accepted, and
what is sent on is a date, 292 thousand million years ago.  (`int64` of such a number is left open by Go; as on amd64.) -/
theorem C174_invalid_refuted (H : Amf3.Handlers) (f : UInt64) (hf : Spec.F64.expo f = 2047)
    (s : St) (rest : Bytes) (hc : s.Contig) (hd : s.data = [8, 1] ++ be64 f ++ rest) :
    ∃ v s' g, Amf3.decode H s = (.ok v, s') ∧ s'.data = rest ∧ (Amf3.encode v Sink.mem).1 = .ok 10 ∧
      (Amf3.encode v Sink.mem).2.out = [8, 1] ++ be64 g ∧ Spec.F64.IsInt g (-(2 ^ 63) * 1000) := by
  obtain ⟨s', h1, h2, _⟩ := decodeDate_lit H f s rest hc (by simpa [u29] using hd)
  rw [not_finite hf] at h1
  obtain ⟨e1, e2⟩ := date_wire (-(2 ^ 63))
  rw [remote_date.1] at e2
  exact ⟨_, s', _, h1, h2, e1, e2, remote_date.2⟩

/-- The usual NaN. -/
example : ∃ v s' g, Amf3.decode (fun _ => none) (St.reader ([8, 1] ++ be64 0x7ff8000000000000 ++ [])) = (.ok v, s') ∧ s'.data = [] ∧
    (Amf3.encode v Sink.mem).1 = .ok 10 ∧ (Amf3.encode v Sink.mem).2.out = [8, 1] ++ be64 g ∧ Spec.F64.IsInt g (-(2 ^ 63) * 1000) :=
  C174_invalid_refuted (fun _ => none) _ (by decide +kernel) _ [] (fun _ => Nat.le_refl _) rfl

/-- C174 fails for every number of milliseconds that is too large for a time in Go: another date is sent on, without an error. -/
theorem C174_remote_refuted (H : Amf3.Handlers) (f : UInt64) (n : Int) (hf : Spec.F64.IsInt f n) (hn : 2 ^ 63 * 1000 ≤ n.natAbs)
    (h : n ≠ -(2 ^ 63) * 1000) (s : St) (rest : Bytes) (hc : s.Contig) (hd : s.data = [8, 1] ++ be64 f ++ rest) :
    ∃ v s' g, Amf3.decode H s = (.ok v, s') ∧ s'.data = rest ∧ (Amf3.encode v Sink.mem).1 = .ok 10 ∧
      (Amf3.encode v Sink.mem).2.out = [8, 1] ++ be64 g ∧ ¬ Spec.F64.IsInt g n := by
  obtain ⟨s', h1, h2, _⟩ := decodeDate_lit H f s rest hc (by simpa [u29] using hd)
  rw [F64.seconds_remote f n hf hn] at h1
  obtain ⟨e1, e2⟩ := date_wire (-(2 ^ 63))
  rw [remote_date.1] at e2
  exact ⟨_, s', _, h1, h2, e1, e2, fun h6 => h (isInt_value h6 remote_date.2)⟩

/-- 2^80 milliseconds after 1970. -/
example : ∃ v s' g, Amf3.decode (fun _ => none) (St.reader ([8, 1] ++ be64 0x44f0000000000000 ++ [])) = (.ok v, s') ∧ s'.data = [] ∧
    (Amf3.encode v Sink.mem).1 = .ok 10 ∧ (Amf3.encode v Sink.mem).2.out = [8, 1] ++ be64 g ∧ ¬ Spec.F64.IsInt g (2 ^ 80) :=
  C174_remote_refuted (fun _ => none) _ (2 ^ 80) (by unfold Spec.F64.IsInt; decide +kernel) (by decide) (by decide) _ []
    (fun _ => Nat.le_refl _) rfl

end Verif.Props
