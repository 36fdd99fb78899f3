import Verif.Model.Flv
import Verif.Spec.Flv
import Verif.Lemmas.Amf
/-! # Lemmas about the FLV muxer and the FLV format -/
namespace Verif.Spec.Flv

@[simp] theorem beN_length (k n : Nat) : (beN k n).length = k := by
  induction k <;> simp [beN, *]

theorem nat_foldl (k n acc : Nat) : (beN k n).foldl (fun acc x => acc * 256 + x.toNat) acc = acc * 256 ^ k + n % 256 ^ k := by
  induction k generalizing acc with
  | zero => simp [beN, Nat.mod_one]
  | succ k ih =>
    simp only [beN, List.foldl_cons, ih]
    have h1 : (UInt8.ofNat (n / 256 ^ k % 256)).toNat = n / 256 ^ k % 256 := by
      rw [UInt8.toNat_ofNat']; omega
    rw [h1]
    have h2 : n % 256 ^ (k + 1) = (n / 256 ^ k % 256) * 256 ^ k + n % 256 ^ k := by
      rw [Nat.pow_succ, Nat.mod_mul]
      rw [Nat.mul_comm (256 ^ k), Nat.add_comm]
    rw [h2, Nat.add_mul, Nat.mul_assoc, ← Nat.pow_succ', Nat.add_assoc]

theorem nat_beN (k n : Nat) : nat (beN k n) = n % 256 ^ k := by
  unfold nat
  rw [nat_foldl]; simp

theorem nat_beN_lt (k n : Nat) (h : n < 256 ^ k) : nat (beN k n) = n := by
  rw [nat_beN, Nat.mod_eq_of_lt h]

theorem readTag_bytes (t : TagRec) (h : t.Fits) (rest : Bytes) : readTag (t.bytes ++ rest) = some (t, rest) := by
  obtain ⟨h1, h2, h3⟩ := h
  have e0 : nat [UInt8.ofNat t.type] = t.type := by
    have := nat_beN_lt 1 t.type (by omega)
    simpa [beN, Nat.mod_eq_of_lt h1] using this
  have e1 := nat_beN_lt 3 t.payload.length (by omega)
  have e2 := nat_beN_lt 3 (t.time % 2 ^ 24) (by omega)
  have e3 := nat_beN_lt 1 (t.time / 2 ^ 24) (by omega)
  have e4 := nat_beN_lt 4 (11 + t.payload.length) (by omega)
  have hlen : (t.bytes ++ rest).length = 15 + t.payload.length + rest.length := by
    simp [TagRec.bytes]; omega
  have hb : t.bytes ++ rest = [UInt8.ofNat t.type] ++ (beN 3 t.payload.length ++ (beN 3 (t.time % 2 ^ 24) ++
      (beN 1 (t.time / 2 ^ 24) ++ ([0, 0, 0] ++ (t.payload ++ (beN 4 (11 + t.payload.length) ++ rest)))))) := by
    simp [TagRec.bytes]
  have d1 : ((t.bytes ++ rest).drop 1).take 3 = beN 3 t.payload.length := by
    rw [hb]; simp [List.take_append]
  have d4 : ((t.bytes ++ rest).drop 4).take 3 = beN 3 (t.time % 2 ^ 24) := by
    rw [hb]; simp [beN]
  have d7 : ((t.bytes ++ rest).drop 7).take 1 = beN 1 (t.time / 2 ^ 24) := by
    rw [hb]; simp [beN]
  have d8 : ((t.bytes ++ rest).drop 8).take 3 = [0, 0, 0] := by
    rw [hb]; simp [beN]
  have d11 : (t.bytes ++ rest).drop 11 = t.payload ++ (beN 4 (11 + t.payload.length) ++ rest) := by
    rw [hb]; simp [beN]
  have dn : (t.bytes ++ rest).drop (11 + t.payload.length) = beN 4 (11 + t.payload.length) ++ rest := by
    rw [← List.drop_drop, d11]; simp
  have dm : (t.bytes ++ rest).drop (15 + t.payload.length) = rest := by
    rw [show 15 + t.payload.length = 11 + t.payload.length + 4 by omega, ← List.drop_drop, dn]
    simp [beN]
  have d0 : (t.bytes ++ rest).take 1 = [UInt8.ofNat t.type] := by
    rw [hb]; simp
  unfold readTag
  simp only [d1, e1]
  rw [if_neg (by omega), if_neg (by simp [d8]), if_neg (by rw [dn]; simp [List.take_append, e4])]
  rw [d0, d4, d7, d11, dm, e0, e2, e3]
  simp
  cases t
  simp at *
  omega

theorem bytes_length (t : TagRec) : t.bytes.length = 15 + t.payload.length := by
  simp [TagRec.bytes]; omega

theorem readTags_bytes (ts : List TagRec) (h : ∀ t ∈ ts, t.Fits) (fuel : Nat) (hf : ts.length ≤ fuel) :
    readTags fuel (ts.flatMap TagRec.bytes) = some ts := by
  induction ts generalizing fuel with
  | nil => cases fuel <;> simp [readTags]
  | cons t ts ih =>
    obtain ⟨f, rfl⟩ : ∃ f, fuel = f + 1 := ⟨fuel - 1, by simp at hf; omega⟩
    have hne : t.bytes ++ ts.flatMap TagRec.bytes ≠ [] := by
      intro he
      have := congrArg List.length he
      simp [bytes_length] at this
    rw [List.flatMap_cons]
    unfold readTags
    split
    · contradiction
    · contradiction
    · next b heq _ =>
      obtain rfl : f = b := Nat.succ.inj heq
      rw [readTag_bytes t (h t (by simp))]
      simp [ih (fun x hx => h x (by simp [hx])) f (by simp at hf; omega)]

theorem readBack_bytes (ts : List TagRec) (h : ∀ t ∈ ts, t.Fits) (fuel : Nat) (hf : ts.length ≤ fuel) :
    readBack fuel (ts.flatMap TagRec.bytes) = some ts := by
  induction hl : ts.length generalizing ts fuel with
  | zero =>
    have : ts = [] := List.length_eq_zero_iff.mp hl
    subst this
    cases fuel <;> simp [readBack]
  | succ n ih =>
    obtain ⟨f, rfl⟩ : ∃ f, fuel = f + 1 := ⟨fuel - 1, by omega⟩
    have hne' : ts ≠ [] := by intro he; simp [he] at hl
    obtain ⟨us, t, rfl⟩ : ∃ us t, ts = us ++ [t] := ⟨ts.dropLast, ts.getLast hne', (List.dropLast_concat_getLast hne').symm⟩
    have hft : t.Fits := h t (by simp)
    have e4 := nat_beN_lt 4 (11 + t.payload.length) (by have := hft.2.2; omega)
    have hb : (us ++ [t]).flatMap TagRec.bytes = us.flatMap TagRec.bytes ++ t.bytes := by simp
    have hlen : (us.flatMap TagRec.bytes ++ t.bytes).length = (us.flatMap TagRec.bytes).length + (15 + t.payload.length) := by
      rw [List.length_append, bytes_length]
    have hd : (us.flatMap TagRec.bytes ++ t.bytes).drop ((us.flatMap TagRec.bytes ++ t.bytes).length - 4) =
        beN 4 (11 + t.payload.length) := by
      have : us.flatMap TagRec.bytes ++ t.bytes = (us.flatMap TagRec.bytes ++ (t.bytes.take (11 + t.payload.length))) ++
          beN 4 (11 + t.payload.length) := by
        have h2 : t.bytes = (UInt8.ofNat t.type :: beN 3 t.payload.length ++ beN 3 (t.time % 2 ^ 24) ++ beN 1 (t.time / 2 ^ 24) ++ [0, 0, 0] ++
            t.payload) ++ beN 4 (11 + t.payload.length) := rfl
        have h3 : (UInt8.ofNat t.type :: beN 3 t.payload.length ++ beN 3 (t.time % 2 ^ 24) ++ beN 1 (t.time / 2 ^ 24) ++ [0, 0, 0] ++
            t.payload).length = 11 + t.payload.length := by simp; omega
        have h4 : t.bytes.take (11 + t.payload.length) = UInt8.ofNat t.type :: beN 3 t.payload.length ++ beN 3 (t.time % 2 ^ 24) ++ beN 1 (t.time / 2 ^ 24) ++ [0, 0, 0] ++
            t.payload := by
          rw [h2, List.take_append_of_le_length (by omega), List.take_of_length_le (by omega)]
        rw [h4, List.append_assoc, ← h2]
      rw [this]
      simp only [List.length_append, beN_length, Nat.add_sub_cancel]
      rw [← List.length_append, List.drop_left]
    rw [hb]
    unfold readBack
    split
    · next he =>
      have := congrArg List.length he
      rw [hlen] at this
      simp at this
    · contradiction
    · next b heq _ =>
      obtain rfl : f = b := Nat.succ.inj heq
      simp only [hd, e4]
      rw [if_neg (by omega)]
      rw [show (us.flatMap TagRec.bytes ++ t.bytes).length - (11 + t.payload.length + 4) = (us.flatMap TagRec.bytes).length by omega]
      rw [List.drop_left, List.take_left]
      have h5 := readTag_bytes t hft []
      rw [List.append_nil] at h5
      rw [h5]
      simp at hl
      simp [ih us (fun x hx => h x (by simp [hx])) f (by simp at hf; omega) hl]

theorem length_flatMap_bytes (ts : List TagRec) : ts.length ≤ (ts.flatMap TagRec.bytes).length := by
  induction ts with
  | nil => simp
  | cons t ts ih =>
    have := bytes_length t
    simp only [List.flatMap_cons, List.length_append, List.length_cons]; omega

/-- Reading back a written file. -/
theorem readFile_write (v a : Bool) (ts : List TagRec) (h : ∀ t ∈ ts, t.Fits) :
    readFile (header v a ++ ts.flatMap TagRec.bytes) = some (v, a, ts) := by
  have hl := length_flatMap_bytes ts
  have h1 := readTags_bytes ts h _ hl
  have h2 := readBack_bytes ts h _ hl
  simp only [header, List.cons_append, List.nil_append, readFile, h1, h2, if_true]
  cases v <;> cases a <;> simp

end Verif.Spec.Flv

namespace Verif.Flv
open Verif.Amf Verif.Spec.Flv

theorem toUInt8_ofNat (x : UInt32) : x.toUInt8 = UInt8.ofNat (x.toNat % 256) := by
  apply UInt8.toNat_inj.mp
  simp

theorem be32_beN (x : UInt32) : be32 x = beN 4 x.toNat := by
  simp [be32, beN, toUInt8_ofNat, Nat.shiftRight_eq_div_pow]

/-- The tag type of a packet type. -/
def tagType (t : Int) : Nat := if t = 0 then 9 else if t = 1 then 8 else 18

/-- What `mux` makes of the packet before it writes. -/
def prep (p : Packet) : Res Packet :=
  if p.type = 0 ∨ p.type = 1 then .ok p
  else if p.type = 2 then
    match Amf0.delMetaHeader Amf0.decode freshTables p.data with
    | .ok d => .ok { p with data := d }
    | .err e => .err e
    | .panic => .panic
    | .diverge => .diverge
  else .err .other

theorem prepare_eq (e : MuxEnv) : prepare e = match prep e.p with
    | .ok p' => (.ok (UInt32.ofNat (tagType e.p.type)), { e with p := p' })
    | .err x => (.err x, e)
    | .panic => (.panic, e)
    | .diverge => (.diverge, e) := by
  unfold prepare prep
  rw [GoM.bind_apply, GoM.get_apply]
  simp only [show PktVideo = 0 from rfl, show PktAudio = 1 from rfl, show PktMetadata = 2 from rfl]
  by_cases h0 : e.p.type = 0
  · simp [h0, tagType, TagVideo]
  · by_cases h1 : e.p.type = 1
    · simp [h1, tagType, TagAudio]
    · by_cases h2 : e.p.type = 2
      · rw [if_neg h0, if_neg h1, if_pos h2, if_neg (by omega), if_pos h2]
        simp only [GoM.bind_apply, GoM.lift_apply]
        cases hd : Amf0.delMetaHeader Amf0.decode freshTables e.p.data <;>
          simp [h2, tagType, TagScriptDataAMF0, GoM.bind_apply]
      · simp [h0, h1, h2]

theorem goSlice_drop {l x : Bytes} (n : Nat) (h : goSlice l n l.length = .ok x) : x = l.drop n ∧ n ≤ l.length := by
  unfold goSlice at h
  split at h
  · next hc =>
    have h' := Res.ok.inj h
    rw [Int.toNat_natCast, Int.toNat_natCast, List.take_length] at h'
    exact ⟨h'.symm, by omega⟩
  · exact absurd h (by simp)

theorem prep_ok (p p' : Packet) (h : prep p = .ok p') :
    p'.type = p.type ∧ (p.type = 0 ∨ p.type = 1 ∨ p.type = 2) ∧
    (p'.data = p.data ∨ p.type = 2 ∧ ∃ n, p'.data = p.data.drop n) ∧ p' = { p with data := p'.data } := by
  unfold prep at h
  split at h
  · next hc =>
    obtain rfl := Res.ok.inj h
    exact ⟨rfl, by omega, .inl rfl, rfl⟩
  · split at h
    · next h2 =>
      cases hd : Amf0.delMetaHeader Amf0.decode freshTables p.data with
      | ok d =>
        rw [hd] at h
        obtain rfl := Res.ok.inj h
        refine ⟨rfl, by omega, ?_, rfl⟩
        unfold Amf0.delMetaHeader at hd
        split at hd
        · split at hd
          · exact .inr ⟨h2, _, (goSlice_drop _ hd).1⟩
          · exact .inl (Res.ok.inj hd).symm
        · exact absurd hd (by simp)
        · exact absurd hd (by simp)
        · exact absurd hd (by simp)
        · exact absurd hd (by simp)
      | err e => rw [hd] at h; simp at h
      | panic => rw [hd] at h; simp at h
      | diverge => rw [hd] at h; simp at h
    · simp at h

/-- Invariant of the muxer. -/
def Good (m : Muxer) : Prop := ∃ a, a.length = 8 ∧ m.tagHdr = a ++ [0, 0, 0]

theorem good_new : Good Muxer.new := ⟨List.replicate 8 0, by simp, by decide⟩

/-- The three chunks written for a tag. -/
def chunks (tid : UInt32) (pts : UInt32) (d : Bytes) : List Bytes :=
  [be32 ((tid <<< 24) + (UInt32.ofNat d.length &&& 0x00ffffff)) ++ be32 (((pts &&& 0x00ffffff) <<< 8) + (pts >>> 24)) ++ [0, 0, 0],
   d, be32 (11 + UInt32.ofNat d.length)]

theorem write_env (b : Bytes) (e : MuxEnv) : MuxEnv.write b e = ((Sink.write b e.w).1, { e with w := (Sink.write b e.w).2 }) := rfl

theorem mux_eq (pts : UInt32) (e : MuxEnv) (hg : Good e.m) :
    (∀ x, prep e.p = .err x → mux pts e = (.err x, e)) ∧
    (prep e.p = .panic → mux pts e = (.panic, e)) ∧
    (prep e.p = .diverge → mux pts e = (.diverge, e)) ∧
    (∀ p', prep e.p = .ok p' → ∃ m', Good m' ∧ m'.flvHdr = e.m.flvHdr ∧
      mux pts e = ((runChunks (chunks (UInt32.ofNat (tagType e.p.type)) pts p'.data) e.w).1,
        ⟨m', p', (runChunks (chunks (UInt32.ofNat (tagType e.p.type)) pts p'.data) e.w).2⟩)) := by
  refine ⟨fun x h => ?_, fun h => ?_, fun h => ?_, fun p' h => ?_⟩
  · unfold mux; rw [GoM.bind_apply, prepare_eq, h]
  · unfold mux; rw [GoM.bind_apply, prepare_eq, h]
  · unfold mux; rw [GoM.bind_apply, prepare_eq, h]
  · obtain ⟨a, ha, ht⟩ := hg
    obtain ⟨a0, a1, a2, a3, a4, a5, a6, a7, rfl⟩ : ∃ a0 a1 a2 a3 a4 a5 a6 a7, a = [a0, a1, a2, a3, a4, a5, a6, a7] := by
      match a, ha with
      | [a0, a1, a2, a3, a4, a5, a6, a7], _ => exact ⟨a0, a1, a2, a3, a4, a5, a6, a7, rfl⟩
    have hp1 : ∀ v, putU32 e.m.tagHdr 0 v = .ok (be32 v ++ [a4, a5, a6, a7, 0, 0, 0]) := by
      intro v; simp [putU32, ht]
    have hp2 : ∀ v u, putU32 (be32 v ++ [a4, a5, a6, a7, 0, 0, 0]) 4 u = .ok (be32 v ++ be32 u ++ [0, 0, 0]) := by
      intro v u; simp [putU32, be32]
    have hp3 : ∀ v u x, putU32 (be32 v ++ be32 u ++ [0, 0, 0]) 0 x = .ok (be32 x ++ be32 u ++ [0, 0, 0]) := by
      intro v u x; simp [putU32, be32]
    have hp4 : ∀ u x, goSlice (be32 x ++ be32 u ++ [0, 0, 0]) 0 4 = .ok (be32 x) := by
      intro u x; simp [goSlice, be32]
    have hgood : ∀ v u, Good { flvHdr := e.m.flvHdr, tagHdr := be32 v ++ be32 u ++ [0, 0, 0] } := fun v u =>
      ⟨be32 v ++ be32 u, by simp [be32], rfl⟩
    unfold mux
    rw [GoM.bind_apply, prepare_eq, h]
    simp only [GoM.bind_apply, GoM.get_apply, GoM.lift_apply, hp1, hp2, hp3, hp4, GoM.set_apply, GoM.modify_apply, write_env, chunks,
      runChunks, Sink.write]
    cases h1 : e.w.plan e.w.calls with
    | some n => exact ⟨_, hgood _ _, rfl, rfl⟩
    | none =>
      simp only
      cases h2 : e.w.plan (e.w.calls + 1) with
      | some n => exact ⟨_, hgood _ _, rfl, rfl⟩
      | none =>
        simp only
        cases h3 : e.w.plan (e.w.calls + 1 + 1) with
        | some n => exact ⟨_, hgood _ _, rfl, rfl⟩
        | none => exact ⟨_, hgood _ _, rfl, rfl⟩

theorem tagType_lt (t : Int) : tagType t < 256 := by unfold tagType; split <;> (try split) <;> omega

/-- For data that fits, the chunks are the bytes of the tag. -/
theorem chunks_flatten (t : Int) (pts : UInt32) (d : Bytes) (h : d.length < 2 ^ 24) :
    (chunks (UInt32.ofNat (tagType t)) pts d).flatten = (TagRec.mk (tagType t) pts.toNat d).bytes := by
  have ht := tagType_lt t
  have hp := pts.toNat_lt
  have e1 : ((UInt32.ofNat (tagType t) <<< 24) + (UInt32.ofNat d.length &&& 0x00ffffff)).toNat = tagType t * 2 ^ 24 + d.length := by
    rw [UInt32.toNat_add, UInt32.toNat_and, UInt32.toNat_shiftLeft, UInt32.toNat_ofNat', UInt32.toNat_ofNat']
    have : d.length % 2 ^ 32 &&& (0x00ffffff : UInt32).toNat = d.length := by
      rw [Nat.mod_eq_of_lt (by omega)]
      exact (Nat.and_two_pow_sub_one_eq_mod d.length 24).trans (Nat.mod_eq_of_lt h)
    rw [this]
    simp [Nat.shiftLeft_eq]
    omega
  have e2 : (((pts &&& 0x00ffffff) <<< 8) + (pts >>> 24)).toNat = pts.toNat % 2 ^ 24 * 256 + pts.toNat / 2 ^ 24 := by
    rw [UInt32.toNat_add, UInt32.toNat_shiftLeft, UInt32.toNat_and, UInt32.toNat_shiftRight]
    have : pts.toNat &&& (0x00ffffff : UInt32).toNat = pts.toNat % 2 ^ 24 := Nat.and_two_pow_sub_one_eq_mod _ 24
    rw [this]
    simp [Nat.shiftLeft_eq, Nat.shiftRight_eq_div_pow]
    omega
  have e3 : (11 + UInt32.ofNat d.length).toNat = 11 + d.length := by
    rw [UInt32.toNat_add, UInt32.toNat_ofNat']
    simp; omega
  simp only [chunks, be32_beN, e1, e2, e3, TagRec.bytes]
  have f1 : beN 4 (tagType t * 2 ^ 24 + d.length) = UInt8.ofNat (tagType t) :: beN 3 d.length := by
    simp only [beN]
    refine List.cons_eq_cons.mpr ⟨by congr 1; omega, ?_⟩
    refine List.cons_eq_cons.mpr ⟨by congr 1; omega, ?_⟩
    refine List.cons_eq_cons.mpr ⟨by congr 1; omega, ?_⟩
    refine List.cons_eq_cons.mpr ⟨by congr 1; omega, rfl⟩
  have f2 : beN 4 (pts.toNat % 2 ^ 24 * 256 + pts.toNat / 2 ^ 24) = beN 3 (pts.toNat % 2 ^ 24) ++ beN 1 (pts.toNat / 2 ^ 24) := by
    have ha : pts.toNat % 2 ^ 24 < 2 ^ 24 := Nat.mod_lt _ (by decide)
    have hb : pts.toNat / 2 ^ 24 < 256 := by omega
    generalize pts.toNat % 2 ^ 24 = a at ha
    generalize pts.toNat / 2 ^ 24 = b at hb
    clear e1 e2 e3 f1
    simp only [beN, List.cons_append, List.nil_append]
    refine List.cons_eq_cons.mpr ⟨by congr 1; omega, ?_⟩
    refine List.cons_eq_cons.mpr ⟨by congr 1; omega, ?_⟩
    refine List.cons_eq_cons.mpr ⟨by congr 1; omega, ?_⟩
    refine List.cons_eq_cons.mpr ⟨by congr 1; omega, rfl⟩
  rw [f1, f2]
  simp

end Verif.Flv
