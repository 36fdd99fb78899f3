import Verif.Lemmas.Amf3Codec
import Verif.Lemmas.Amf0
import Verif.Lemmas.Float64Round
import Verif.Spec.AmfEncode
/-! # What the encoders write -/
namespace Verif.Amf3
open Verif.Amf Verif.Spec.Amf3

theorem isU29_u29 (n : Nat) (h : n < 2 ^ 29) : IsU29 (u29 n) n := by
  have e : ∀ x, x < 256 → (UInt8.ofNat x).toNat = x := fun x hx => by rw [UInt8.toNat_ofNat', Nat.mod_eq_of_lt (by omega)]
  unfold u29
  by_cases h1 : n < 128
  · rw [if_pos h1]
    have := IsU29.one (UInt8.ofNat n) (by rw [e n (by omega)]; exact h1)
    rwa [e n (by omega)] at this
  rw [if_neg h1]
  by_cases h2 : n < 16384
  · rw [if_pos h2]
    have := IsU29.two (UInt8.ofNat (128 + n / 128)) (UInt8.ofNat (n % 128)) (by rw [e _ (by omega)]; omega) (by rw [e _ (by omega)]; omega)
    rw [e _ (by omega), e _ (by omega)] at this
    rwa [show (128 + n / 128 - 128) * 128 + n % 128 = n by omega] at this
  rw [if_neg h2]
  by_cases h3 : n < 2097152
  · rw [if_pos h3]
    have := IsU29.three (UInt8.ofNat (128 + n / 16384)) (UInt8.ofNat (128 + n / 128 % 128)) (UInt8.ofNat (n % 128))
      (by rw [e _ (by omega)]; omega) (by rw [e _ (by omega)]; omega) (by rw [e _ (by omega)]; omega)
    rw [e _ (by omega), e _ (by omega), e _ (by omega)] at this
    rwa [show ((128 + n / 16384 - 128) * 128 + (128 + n / 128 % 128 - 128)) * 128 + n % 128 = n by omega] at this
  rw [if_neg h3]
  have := IsU29.four (UInt8.ofNat (128 + n / 4194304)) (UInt8.ofNat (128 + n / 32768 % 128)) (UInt8.ofNat (128 + n / 256 % 128)) (UInt8.ofNat (n % 256))
    (by rw [e _ (by omega)]; omega) (by rw [e _ (by omega)]; omega) (by rw [e _ (by omega)]; omega)
  rw [e _ (by omega), e _ (by omega), e _ (by omega), e _ (by omega)] at this
  rwa [show (((128 + n / 4194304 - 128) * 128 + (128 + n / 32768 % 128 - 128)) * 128 + (128 + n / 256 % 128 - 128)) * 256 + n % 256 = n by omega] at this

theorem lit_utf8 (s : Bytes) (h : s.length < 2 ^ 28) : Lit s (utf8 s) := .lit (isU29_u29 _ (by omega))

theorem lits_utf8 (l : List Bytes) (h : ∀ s ∈ l, s.length < 2 ^ 28) : Lits l (l.flatMap utf8) := by
  induction l with
  | nil => exact .nil
  | cons k l ih => exact .cons (lit_utf8 k (h k (by simp))) (ih fun s hs => h s (by simp [hs]))

/-- `m` writes bytes that stand for `v`, and counts them. -/
def Sends (m : GoM Sink Nat) (v : Val) : Prop := ∃ cs : List Bytes, Emits m cs (.ok cs.flatten.length) ∧ Denotes v cs.flatten

theorem sends_double {i : Int} (h : i.natAbs < 2 ^ 64) : ∃ cs : List Bytes, Emits (encodeDouble (F64.ofInt i)) cs (.ok cs.flatten.length) ∧ Number i cs.flatten :=
  ⟨_, (emits_double _).congr rfl (by simp [be64, Amf0.be64_length]), by
    simpa using Number.double (F64.ofInt_nearest i (Nat.lt_of_lt_of_le h (Nat.pow_le_pow_right (by omega) (by omega))))⟩

theorem sends_integer {x : UInt32} {n : Nat} (e : x.toNat = n) (h : n < 268435456) :
    ∃ cs : List Bytes, Emits (encodeInteger x) cs (.ok cs.flatten.length) ∧ Number n cs.flatten := by
  have := emits_writeUint29 x (by omega)
  rw [e] at this
  refine ⟨_, Emits.congr ((Emits.writeByte 4).bind this.map) rfl ?_, ?_⟩
  · simp; omega
  · have := Number.int (i := n) (isU29_u29 n (by omega)) (by unfold signed; rw [if_pos (by omega)])
    simpa using this

theorem sends_runAll {α} (g : α → GoM Sink Nat) (val : α → Val) (l : List α) (h : ∀ e ∈ l, Sends (g e) (val e)) (n : Nat) :
    ∃ cs : List Bytes, Emits (runAll n (l.map g)) cs (.ok (n + cs.flatten.length)) ∧ DenotesL (l.map val) cs.flatten := by
  induction l generalizing n with
  | nil => exact ⟨[], Emits.pure n, .nil⟩
  | cons e l ih =>
    obtain ⟨cs, h1, h2⟩ := h e (by simp)
    obtain ⟨ds, h3, h4⟩ := ih (fun e he => h e (by simp [he])) (n + cs.flatten.length)
    refine ⟨cs ++ ds, Emits.congr (h1.bind h3) rfl ?_, ?_⟩
    · simp [Nat.add_assoc]
    · rw [List.flatten_append]; exact .cons h2 h4

theorem sends_entries (t : Bytes) (kvs : List (Bytes × Val)) (ht : t.length < 2 ^ 28) (hl : kvs.length < 2 ^ 25)
    (hk : ∀ e ∈ kvs, e.1.length < 2 ^ 28 ∧ Sends (enc e.2) e.2) :
    ∃ cs : List Bytes, Emits (encodeEntries t (encF kvs)) cs (.ok cs.flatten.length) ∧
      ∃ (l : List (Bytes × Val)) (u n ks b : Bytes), cs.flatten = 10 :: (u ++ (n ++ (ks ++ b))) ∧ l.Perm kvs ∧ IsU29 u (16 * l.length + 3) ∧ Lit t n ∧
        Lits (l.map Prod.fst) ks ∧ DenotesL (l.map Prod.snd) b := by
  have hs1 : sortKeys (encF kvs) = (sortKeys kvs).map fun e => (e.1, enc e.2) := by
    rw [encF_map, sortKeys_map]
  have hp := sortKeys_perm kvs
  unfold encodeEntries
  rw [hs1]
  simp only [List.map_map, List.length_map, Function.comp_def]
  have hlen := hp.length_eq
  obtain ⟨cs, c1, c2⟩ := emits_runAll (fun e : Bytes × Val => encodeUtf8 e.1) (fun e => utf8 e.1) (sortKeys kvs)
    (fun e he => ⟨_, by simp [utf8], emits_utf8 _ (hk e (hp.mem_iff.mp he)).1⟩)
    (1 + (u29 (16 * (sortKeys kvs).length + 3)).length + (utf8 t).length)
  obtain ⟨ds, d1, d2⟩ := sends_runAll (fun e : Bytes × Val => enc e.2) Prod.snd (sortKeys kvs)
    (fun e he => (hk e (hp.mem_iff.mp he)).2)
    (1 + (u29 (16 * (sortKeys kvs).length + 3)).length + (utf8 t).length + ((sortKeys kvs).flatMap fun e => utf8 e.1).length)
  have hu := emits_writeUint29 ((3 : UInt32) ||| (UInt32.ofNat (sortKeys kvs).length <<< 4))
    (by rw [hdr _ (by omega)]; omega)
  rw [hdr _ (by omega)] at hu
  refine ⟨_, Emits.congr ((Emits.writeByte 10).bind (hu.bind ((emits_utf8 t ht).bind (c2.bind d1)))) rfl ?_,
    sortKeys kvs, u29 (16 * (sortKeys kvs).length + 3), utf8 t, (sortKeys kvs).flatMap (fun e => utf8 e.1), ds.flatten, ?_, hp,
    isU29_u29 _ (by omega), lit_utf8 t ht, ?_, d2⟩
  · simp [c1, utf8]; omega
  · simp [c1, utf8]
  · have := lits_utf8 ((sortKeys kvs).map Prod.fst) (by
      intro s hs
      obtain ⟨e, he, rfl⟩ := List.mem_map.1 hs
      exact (hk e (hp.mem_iff.mp he)).1)
    rwa [List.flatMap_map] at this

mutual
theorem sends : (v : Val) → Sendable v → Sends (enc v) v
  | .nil, _ => ⟨_, (Emits.writeByte 1).map, .null⟩
  | .bool true, _ => ⟨_, (Emits.writeByte 3).map, .yes⟩
  | .bool false, _ => ⟨_, (Emits.writeByte 2).map, .no⟩
  | .int false i, h => by
    simp only [Sendable] at h
    unfold Sends
    rw [enc]
    by_cases hi : -536870911 ≤ i ∧ i < 536870911
    · rw [if_pos hi]
      obtain ⟨n, rfl⟩ : ∃ n : Nat, i = n := ⟨i.toNat, by omega⟩
      obtain ⟨cs, h1, h2⟩ := sends_integer (x := UInt32.ofNat ((n : Int) % 2 ^ 32).toNat) (n := n) (by rw [UInt32.toNat_ofNat']; omega) (by omega)
      exact ⟨cs, h1, .int h2⟩
    · rw [if_neg hi]
      obtain ⟨cs, h1, h2⟩ := sends_double h.2
      exact ⟨cs, h1, .int h2⟩
  | .int true i, h => by
    simp only [Sendable] at h
    obtain ⟨cs, h1, h2⟩ := sends_double h
    exact ⟨cs, h1, .int h2⟩
  | .uint false n, h => by
    simp only [Sendable] at h
    unfold Sends
    rw [enc]
    by_cases hi : n < 536870911
    · rw [if_pos hi]
      obtain ⟨cs, h1, h2⟩ := sends_integer (x := UInt32.ofNat n) (n := n) (by rw [UInt32.toNat_ofNat']; omega) (by omega)
      exact ⟨cs, h1, .uint h2⟩
    · rw [if_neg hi]
      obtain ⟨cs, h1, h2⟩ := sends_double (i := n) (by omega)
      exact ⟨cs, h1, .uint h2⟩
  | .uint true n, h => by
    simp only [Sendable] at h
    obtain ⟨cs, h1, h2⟩ := sends_double (i := n) (by omega)
    exact ⟨cs, h1, .uint h2⟩
  | .f64 f, _ => ⟨_, (emits_double f).congr rfl (by simp [Amf0.be64_length]), by simpa using Denotes.double f⟩
  | .str s, h => by
    simp only [Sendable] at h
    refine ⟨_, Emits.congr ((Emits.writeByte 6).bind (emits_utf8 s h).map) rfl ?_, ?_⟩
    · simp [utf8]; omega
    · simpa [utf8] using Denotes.str (lit_utf8 s h)
  | .time sec, h => by
    simp only [Sendable] at h
    refine ⟨_, (Emits.writeByte 8).bind ((Emits.writeByte 1).bind ((Emits.write (be64 (F64.mul1000 (F64.ofInt sec)))).map)), ?_⟩
    rw [F64.mul1000_int sec h]
    simpa using Denotes.date (u := [1]) (IsU29.one 1 (by decide)) (F64.ofInt_isInt (sec * 1000) h)
  | .bytes b, h => by
    simp only [Sendable] at h
    refine ⟨_, Emits.congr ((Emits.writeByte 12).bind ((emits_encodeUint29 _ h).bind (Emits.write b).map)) rfl ?_, ?_⟩
    · simp; omega
    · simpa using Denotes.bytes (x := b) (isU29_u29 _ (by omega))
  | .arr xs, h => by
    simp only [Sendable] at h
    obtain ⟨cs, h1, h2⟩ := sendsL xs h.2
    refine ⟨_, Emits.congr ((Emits.writeByte 9).bind ((emits_encodeUint29 _ h.1).bind
      ((emits_utf8 [] (by simp)).bind h1.map))) rfl ?_, ?_⟩
    · simp [utf8]; omega
    · simpa [utf8] using Denotes.arr (isU29_u29 _ (by omega)) (lit_utf8 [] (by simp)) h2
  | .obj kvs, h => by
    simp only [Sendable] at h
    obtain ⟨cs, h1, l, u, n, ks, b, h2, h3, h4, h5, h6, h7⟩ := sends_entries [] kvs (by simp) h.1 (sendsF kvs h.2)
    exact ⟨cs, h1, h2 ▸ .obj h3 h4 h5 h6 h7⟩
  | .typed t kvs, h => by
    simp only [Sendable] at h
    obtain ⟨cs, h1, l, u, n, ks, b, h2, h3, h4, h5, h6, h7⟩ := sends_entries t kvs h.1 h.2.1 (sendsF kvs h.2.2)
    exact ⟨cs, h1, h2 ▸ .typed h3 h4 h5 h6 h7⟩
  | .ecma _ _, h => by simp [Sendable] at h
  | .shared _, h => by simp [Sendable] at h
  | .other, h => by simp [Sendable] at h
theorem sendsL : (vs : List Val) → SendableL vs →
    ∃ cs : List Bytes, Emits (encL vs) cs (.ok cs.flatten.length) ∧ DenotesL vs cs.flatten
  | [], _ => ⟨_, Emits.pure 0, .nil⟩
  | v :: vs, h => by
    simp only [SendableL] at h
    obtain ⟨cs, h1, h2⟩ := sends v h.1
    obtain ⟨ds, h3, h4⟩ := sendsL vs h.2
    exact ⟨_, (h1.bind h3.map).congr rfl (by simp), by rw [List.flatten_append]; exact .cons h2 h4⟩
theorem sendsF : (kvs : List (Bytes × Val)) → SendableF kvs → ∀ e ∈ kvs, e.1.length < 2 ^ 28 ∧ Sends (enc e.2) e.2
  | [], _, e, he => by simp at he
  | (k, v) :: r, h, e, he => by
    simp only [SendableF] at h
    rcases List.mem_cons.mp he with rfl | he
    · exact ⟨h.1, sends v h.2.1⟩
    · exact sendsF r h.2.2 e he
end

end Verif.Amf3

namespace Verif.Amf0
open Verif.Amf Verif.Spec.Amf0

theorem near {i : Int} (h : i.natAbs < 2 ^ 64) : Spec.F64.Nearest (F64.ofInt i) i 1 :=
  F64.ofInt_nearest i (Nat.lt_of_lt_of_le h (Nat.pow_le_pow_right (by omega) (by omega)))

theorem denotes_bytes : (b : Bytes) →
    DenotesL0 (b.map fun x => .uint false x.toNat) (b.flatMap fun x => number (F64.ofInt x.toNat))
  | [] => .nil
  | x :: b => .cons (.uint (near (by have := x.toNat_lt; omega))) (denotes_bytes b)

mutual
theorem denotes_wire : (v : Val) → Encodable v → Fits64 v → Denotes0 v (wire v)
  | .nil, _, _ => .null
  | .bool true, _, _ => .yes
  | .bool false, _, _ => .no
  | .f64 f, _, _ => .number f
  | .int _ i, _, h => .int (near (by simpa only [Fits64] using h))
  | .uint _ n, _, h => .uint (near (by simp only [Fits64] at h; omega))
  | .str s, h, _ => by
    simp only [Encodable] at h
    rw [wire]
    split
    · exact .str (by omega)
    · exact .longStr h
  | .arr xs, h, g => by
    simp only [Encodable] at h
    simp only [Fits64] at g
    rw [wire]
    exact .arr h.1 (denotes_wireL xs h.2 g)
  | .bytes b, h, _ => by
    simp only [Encodable] at h
    rw [wire]
    exact .bytes h (denotes_bytes b)
  | .obj kvs, h, g => by
    simp only [Encodable] at h
    simp only [Fits64] at g
    rw [wire]
    exact .obj (.refl _) (denotes_wireF kvs h.2 g)
  | .typed t kvs, h, g => by
    simp only [Encodable] at h
    simp only [Fits64] at g
    rw [wire]
    exact .typed (.refl _) (by omega) (denotes_wireF kvs h.2.2 g)
  | .time t, h, _ => by simp [Encodable] at h
  | .ecma _ _, h, _ => by simp [Encodable] at h
  | .shared _, h, _ => by simp [Encodable] at h
  | .other, h, _ => by simp [Encodable] at h
theorem denotes_wireL : (vs : List Val) → EncodableL vs → Fits64L vs → DenotesL0 vs (wireL vs)
  | [], _, _ => .nil
  | v :: vs, h, g => by
    simp only [EncodableL] at h
    simp only [Fits64L] at g
    rw [wireL]
    exact .cons (denotes_wire v h.1 g.1) (denotes_wireL vs h.2 g.2)
theorem denotes_wireF : (kvs : List (Bytes × Val)) → EncodableF kvs → Fits64F kvs → DenotesF kvs (wireF kvs)
  | [], _, _ => .nil
  | (k, v) :: r, h, g => by
    simp only [EncodableF] at h
    simp only [Fits64F] at g
    rw [wireF, List.append_assoc]
    exact .cons (by rintro rfl; simp at h) (by omega) (denotes_wire v h.2.1 g.1) (denotes_wireF r h.2.2 g.2)
end

end Verif.Amf0
