import Verif.Model.Ts
import Verif.Spec.Ts
import Verif.Lemmas.Crc
import Verif.Lemmas.FlvMixer
/-! # Lemmas about transport packets -/
namespace Verif.Ts

/-! ## Buffers -/

theorem goSet_at {α} (pre : List α) (x v : α) (rest : List α) (i : Int) (hi : i = pre.length) :
    goSet (pre ++ x :: rest) i v = .ok (pre ++ v :: rest) := by
  subst hi
  unfold goSet
  rw [if_neg (by omega), Int.toNat_natCast, if_pos (by simp)]
  simp

theorem goCopyAt_at (pre rest src : Bytes) (i : Nat) (hi : i = pre.length) (h : src.length ≤ rest.length) :
    goCopyAt (pre ++ rest) i src = .ok (pre ++ (src ++ rest.drop src.length)) := by
  subst hi
  unfold goCopyAt
  rw [if_pos (by simp), List.take_left, List.length_append, Nat.add_sub_cancel_left, List.take_of_length_le h,
    List.drop_append, List.drop_of_length_le (by omega), List.append_assoc]
  simp

theorem goSlice_ok {α} (l : List α) (a b : Int) (m n : Nat) (ha : a = m) (hb : b = n) (h : m ≤ n) (h' : n ≤ l.length) :
    goSlice l a b = .ok ((l.take n).drop m) := by
  subst ha hb
  unfold goSlice
  rw [if_pos (by omega), Int.toNat_natCast, Int.toNat_natCast]

/-- The stuffing of an adaptation field of `n` bytes. -/
def stuffing (n : Nat) : Bytes := if n = 0 then [] else 0 :: List.replicate (n - 1) 0xff

theorem stuffing_length (n : Nat) : (stuffing n).length = n := by
  unfold stuffing; split
  · simp_all
  · simp; omega

theorem stuffLoop_ok (off last : Nat) (fuel i : Nat) (pre rest : Bytes) (hp : pre.length = off + i)
    (hi : i ≤ last + 1) (hr : last + 1 - i ≤ rest.length) (hf : last + 1 - i < fuel) :
    stuffLoop off last fuel i (pre ++ rest) = .ok (pre ++ (List.replicate (last + 1 - i) 0xff ++ rest.drop (last + 1 - i))) := by
  induction fuel generalizing i pre rest with
  | zero => omega
  | succ fuel ih =>
    unfold stuffLoop
    by_cases h : i ≤ last
    · obtain ⟨x, rest, rfl⟩ : ∃ x r, rest = x :: r := by
        cases rest with
        | nil => simp at hr; omega
        | cons x r => exact ⟨x, r, rfl⟩
      rw [if_pos h, goSet_at pre x _ rest _ (by omega)]
      simp only [Res.bind_ok]
      have := ih (i + 1) (pre ++ [0xff]) rest (by simp; omega) (by omega) (by simp at hr; omega) (by omega)
      rw [List.append_assoc] at this
      refine Eq.trans this ?_
      have e : last + 1 - i = (last + 1 - (i + 1)) + 1 := by omega
      rw [e, List.replicate_succ]
      simp
    · rw [if_neg h]
      have e : last + 1 - i = 0 := by omega
      simp [e]

theorem writeStuff_ok (pre rest : Bytes) (i : Nat) (r : UInt8) (hi : i = pre.length) (h1 : 1 ≤ r.toNat) (h2 : r.toNat ≤ rest.length) :
    writeStuff (pre ++ rest) i r = .ok (pre ++ (UInt8.ofNat (r.toNat - 1) :: stuffing (r.toNat - 1) ++ rest.drop r.toNat)) := by
  subst hi
  unfold writeStuff
  rw [if_neg (by simp)]
  obtain ⟨x, rest, rfl⟩ : ∃ x q, rest = x :: q := by
    cases rest with
    | nil => simp at h2; omega
    | cons x q => exact ⟨x, q, rfl⟩
  have hn : r - 1 = UInt8.ofNat (r.toNat - 1) := by
    apply UInt8.toNat_inj.mp
    have := r.toNat_lt
    rw [UInt8.toNat_sub, UInt8.toNat_ofNat', show (1 : UInt8).toNat = 1 from rfl]; omega
  have hnn : (r - 1).toNat = r.toNat - 1 := by
    have := r.toNat_lt
    rw [hn, UInt8.toNat_ofNat']; omega
  simp only
  rw [goSet_at pre x _ rest _ rfl]
  simp only [Res.bind_ok]
  by_cases hz : r - 1 > 0
  · have hz' : 0 < r.toNat - 1 := by rw [← hnn]; exact UInt8.lt_iff_toNat_lt.mp hz
    rw [if_pos hz]
    obtain ⟨y, rest, rfl⟩ : ∃ x q, rest = x :: q := by
      cases rest with
      | nil => simp at h2; omega
      | cons x q => exact ⟨x, q, rfl⟩
    have a1 : pre ++ (r - 1) :: y :: rest = (pre ++ [r - 1]) ++ y :: rest := by simp
    rw [a1, goSet_at (pre ++ [r - 1]) y _ rest _ (by simp)]
    simp only [Res.bind_ok]
    have a2 : pre ++ [r - 1] ++ 0 :: rest = (pre ++ [r - 1, 0]) ++ rest := by simp
    rw [a2, stuffLoop_ok pre.length (r - 1).toNat 256 2 (pre ++ [r - 1, 0]) rest (by simp) (by omega)
      (by simp at h2; omega) (by have := r.toNat_lt; omega)]
    rw [hnn, hn]
    unfold stuffing
    rw [if_neg (by omega)]
    obtain ⟨k, hk⟩ : ∃ k, r.toNat = k + 2 := ⟨r.toNat - 2, by omega⟩
    simp [hk]
  · rw [if_neg hz]
    have : r.toNat - 1 = 0 := by
      rw [← hnn]
      have : ¬ 0 < (r - 1).toNat := fun h => hz (UInt8.lt_iff_toNat_lt.mpr h)
      omega
    have hr : r.toNat = 1 := by omega
    rw [this, hn, this, hr]
    simp [stuffing]

/-- The adaptation field of a key frame. -/
def pcrField (dts : Int) : Bytes :=
  [0x50, toByte (dts / 2 ^ 25), toByte (dts / 2 ^ 17), toByte (dts / 2 ^ 9), toByte (dts / 2 ^ 1),
    toByte (dts % 2 * 128) ||| 0x7e, 0x00]

theorem writePcr_ok (pre : Bytes) (a b c d e f : UInt8) (rest : Bytes) (i : Nat) (hi : i = pre.length) (dts : Int) :
    writePcr (pre ++ a :: b :: c :: d :: e :: f :: rest) i dts = .ok (pre ++ ((pcrField dts).drop 1 ++ rest)) := by
  subst hi
  unfold writePcr pcrField
  rw [goSet_at pre a _ _ _ rfl]
  simp only [Res.bind_ok]
  rw [show ∀ x : UInt8, pre ++ x :: b :: c :: d :: e :: f :: rest = (pre ++ [x]) ++ b :: c :: d :: e :: f :: rest from fun x => by simp,
    goSet_at (pre ++ [_]) b _ _ _ (by simp)]
  simp only [Res.bind_ok]
  rw [show ∀ x y : UInt8, (pre ++ [x]) ++ y :: c :: d :: e :: f :: rest = (pre ++ [x, y]) ++ c :: d :: e :: f :: rest from fun x y => by simp,
    goSet_at (pre ++ [_, _]) c _ _ _ (by simp)]
  simp only [Res.bind_ok]
  rw [show ∀ x y z : UInt8, (pre ++ [x, y]) ++ z :: d :: e :: f :: rest = (pre ++ [x, y, z]) ++ d :: e :: f :: rest from fun x y z => by simp,
    goSet_at (pre ++ [_, _, _]) d _ _ _ (by simp)]
  simp only [Res.bind_ok]
  rw [show ∀ x y z u : UInt8, (pre ++ [x, y, z]) ++ u :: e :: f :: rest = (pre ++ [x, y, z, u]) ++ e :: f :: rest from fun x y z u => by simp,
    goSet_at (pre ++ [_, _, _, _]) e _ _ _ (by simp)]
  simp only [Res.bind_ok]
  rw [show ∀ x y z u v : UInt8, (pre ++ [x, y, z, u]) ++ v :: f :: rest = (pre ++ [x, y, z, u, v]) ++ f :: rest from fun x y z u v => by simp,
    goSet_at (pre ++ [_, _, _, _, _]) f _ _ _ (by simp)]
  simp

/-! ## Packets -/

/-- The bytes of a transport packet. -/
def pktBytes (start : Bool) (pid : UInt16) (cc : UInt8) (ad : Option Bytes) (pl : Bytes) : Bytes :=
  [(0x47 : UInt8), if start then (pid >>> 8).toUInt8 ||| 0x40 else (pid >>> 8).toUInt8, pid.toUInt8,
    if ad.isSome then (0x10 ||| cc) ||| 0x20 else 0x10 ||| cc] ++
  (match ad with | none => [] | some a => UInt8.ofNat a.length :: a) ++ pl

theorem orTab10 : ∀ c : Fin 16, (0x10 ||| UInt8.ofNat c.val).toNat = 16 + c.val := by decide
theorem orTab30 : ∀ c : Fin 16, ((0x10 ||| UInt8.ofNat c.val) ||| 0x20).toNat = 48 + c.val := by decide

theorem or10 (c : UInt8) (h : c.toNat < 16) : (0x10 ||| c).toNat = 16 + c.toNat := by
  have := orTab10 ⟨c.toNat, h⟩
  simpa using this
theorem or30 (c : UInt8) (h : c.toNat < 16) : ((0x10 ||| c) ||| 0x20).toNat = 48 + c.toNat := by
  have := orTab30 ⟨c.toNat, h⟩
  simpa using this

theorem parse_pktBytes (start : Bool) (pid : UInt16) (cc : UInt8) (ad : Option Bytes) (pl : Bytes)
    (hp : pid.toNat < 8192) (hc : cc.toNat < 16) (hl : (pktBytes start pid cc ad pl).length = 188) :
    Spec.Ts.parsePacket (pktBytes start pid cc ad pl) = some ⟨start, pid.toNat, cc.toNat, ad, pl⟩ := by
  have hlo : pid.toUInt8.toNat = pid.toNat % 256 := by simp
  have hb1 : (if start then (pid >>> 8).toUInt8 ||| 0x40 else (pid >>> 8).toUInt8).toNat
      = pid.toNat / 256 + (if start then 64 else 0) := by
    have hhi : (pid >>> 8).toUInt8.toNat = pid.toNat / 256 := by
      simp [Nat.shiftRight_eq_div_pow]; omega
    cases start with
    | false => simpa using hhi
    | true =>
      have tab : ∀ c : Fin 32, (UInt8.ofNat c.val ||| 0x40).toNat = c.val + 64 := by decide
      have := tab ⟨(pid >>> 8).toUInt8.toNat, by rw [hhi]; omega⟩
      simp only [UInt8.ofNat_toNat] at this
      simp only [if_true, this, hhi]
  generalize hg1 : (if start then (pid >>> 8).toUInt8 ||| 0x40 else (pid >>> 8).toUInt8) = b1 at *
  have hst : decide (b1.toNat / 64 % 2 = 1) = start := by
    rw [hb1]; cases start <;> simp <;> omega
  have hpid : b1.toNat % 32 * 256 + pid.toUInt8.toNat = pid.toNat := by
    rw [hb1, hlo]; cases start <;> simp <;> omega
  have hlt : b1.toNat < 128 := by rw [hb1]; cases start <;> simp <;> omega
  cases ad with
  | none =>
    have h3 := or10 cc hc
    unfold pktBytes at hl ⊢
    rw [hg1] at hl ⊢
    simp only [Option.isSome_none, Bool.false_eq_true, if_false, List.append_nil, List.cons_append, List.nil_append] at hl ⊢
    unfold Spec.Ts.parsePacket
    simp only
    rw [if_pos ⟨by decide, hl, hlt, by omega⟩, if_pos (by omega), hst, hpid, h3]
    simp; omega
  | some a =>
    have h3 := or30 cc hc
    unfold pktBytes at hl ⊢
    rw [hg1] at hl ⊢
    simp only [Option.isSome_some, if_true, List.cons_append, List.nil_append] at hl ⊢
    have hal : a.length + pl.length = 183 := by simp at hl; omega
    have hn : (UInt8.ofNat a.length).toNat = a.length := by rw [UInt8.toNat_ofNat']; omega
    unfold Spec.Ts.parsePacket
    simp only
    rw [if_pos ⟨by decide, hl, hlt, by omega⟩, if_neg (by omega), if_pos (by omega), hst, hpid, h3, hn,
      if_pos (by simp), List.take_left, List.drop_left]
    simp; omega

theorem parseN_flatten (pk : List (Bytes × Spec.Ts.TsPacket)) (n : Nat)
    (h : ∀ x ∈ pk, x.1.length = 188 ∧ Spec.Ts.parsePacket x.1 = some x.2) (hn : pk.length ≤ n) :
    Spec.Ts.parseN n (pk.map (·.1)).flatten = some (pk.map (·.2)) := by
  induction pk generalizing n with
  | nil => cases n <;> rfl
  | cons x pk ih =>
    obtain ⟨hx1, hx2⟩ := h x (by simp)
    obtain ⟨n, rfl⟩ : ∃ k, n = k + 1 := ⟨n - 1, by simp at hn; omega⟩
    simp only [List.map_cons, List.flatten_cons]
    obtain ⟨y, ys, hy⟩ : ∃ y ys, x.1 = y :: ys := by
      cases h1 : x.1 with
      | nil => rw [h1] at hx1; simp at hx1
      | cons y ys => exact ⟨y, ys, rfl⟩
    have e : Spec.Ts.parseN (n + 1) (x.1 ++ (pk.map (·.1)).flatten) =
      (match Spec.Ts.parsePacket ((x.1 ++ (pk.map (·.1)).flatten).take 188), Spec.Ts.parseN n ((x.1 ++ (pk.map (·.1)).flatten).drop 188) with
        | some p, some ps => some (p :: ps)
        | _, _ => none) := by
      rw [hy]; rfl
    rw [e, ← hx1, List.take_left, List.drop_left, hx2, ih n (fun z hz => h z (by simp [hz])) (by simp at hn; omega)]

theorem parseStream_flatten (pk : List (Bytes × Spec.Ts.TsPacket))
    (h : ∀ x ∈ pk, x.1.length = 188 ∧ Spec.Ts.parsePacket x.1 = some x.2) :
    Spec.Ts.parseStream (pk.map (·.1)).flatten = some (pk.map (·.2)) := by
  apply parseN_flatten pk _ h
  induction pk with
  | nil => simp
  | cons x pk ih =>
    have h1 := (h x (by simp)).1
    have h2 := ih fun z hz => h z (by simp [hz])
    simp only [List.map_cons, List.flatten_cons, List.length_append, List.length_cons]
    omega

end Verif.Ts
