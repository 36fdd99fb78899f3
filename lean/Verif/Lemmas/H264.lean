import Verif.Model.H264
import Verif.Spec.Parser
import Verif.Lemmas.Amf
import Verif.Lemmas.Flv
/-! # Lemmas about the H.264 parser -/
namespace Verif.H264
open Verif Verif.Spec.Es

/-- The loop with the unread input as its state. -/
def loopL (p : Parser) : Nat → Bytes → Bytes → Bool → Bool → GoM Sink Unit
  | 0, _, _, _, _ => GoM.diverge
  | fuel + 1, rest, sp, has, wr =>
    match rest with
    | [] => pure ()
    | a :: b :: c :: d :: r =>
      let n := Spec.Flv.nat [a, b, c, d]
      if n = 0 then GoM.fail .other
      else if r.length < n then GoM.fail .other
      else
        let nal := r.take n
        let t := unitType nal
        if t = 9 then loopL p fuel (r.drop n) sp has wr
        else if t = 5 then do
          writeParams p sp has wr
          writeUnit nal
          loopL p fuel (r.drop n) sp has true
        else if t = 1 ∨ t = 6 then do
          writeUnit nal
          loopL p fuel (r.drop n) sp has wr
        else if t = 7 ∨ t = 8 then loopL p fuel (r.drop n) (sp ++ [0, 0, 0, 1] ++ nal) true wr
        else GoM.fail .other
    | _ => GoM.fail .other

theorem goSlice_nat {l : Bytes} {a b : Nat} (h1 : a ≤ b) (h2 : b ≤ l.length) :
    goSlice l (a : Int) (b : Int) = .ok ((l.take b).drop a) := by
  unfold goSlice
  rw [if_pos ⟨by omega, by omega, by omega⟩]
  simp

theorem goIndex_nat {α} {l : List α} {i : Nat} (h : i < l.length) : goIndex l (i : Int) = .ok l[i] := by
  unfold goIndex
  rw [if_neg (by omega)]
  simp [List.getElem?_eq_getElem h]

theorem naluSize_cons (a b c d : UInt8) (r : Bytes) :
    naluSize (a :: b :: c :: d :: r) = .ok (Spec.Flv.nat [a, b, c, d]) := by
  unfold naluSize naluBytesLen
  rw [if_neg (by simp)]
  rw [show goSlice (a :: b :: c :: d :: r) 0 ((4 : Nat) : Int) = _ from
    goSlice_nat (l := a :: b :: c :: d :: r) (a := 0) (b := 4) (by omega) (by simp)]
  simp [Spec.Flv.nat, Nat.shiftLeft_eq]

theorem naluSize_short (r : Bytes) (h : r.length < 4) : naluSize r = .err .other := by
  unfold naluSize naluBytesLen
  rw [if_pos h]

theorem and31 (b : UInt8) : (b &&& 0x1f).toNat = b.toNat % 32 := by
  rw [UInt8.toNat_and]; exact Nat.and_two_pow_sub_one_eq_mod b.toNat 5

theorem and31_eq (b c : UInt8) : (b &&& 0x1f = c) ↔ b.toNat % 32 = c.toNat := by
  rw [← and31, UInt8.toNat_inj]

theorem loop_eq (p : Parser) (src : Bytes) (fuel i : Nat) (sp : Bytes) (has wr : Bool) (hi : i ≤ src.length) :
    annexbLoop p src fuel i sp has wr = loopL p fuel (src.drop i) sp has wr := by
  induction fuel generalizing i sp has wr with
  | zero => rfl
  | succ fuel ih =>
    rw [annexbLoop, loopL.eq_def]
    have hlen : (src.drop i).length = src.length - i := List.length_drop
    rw [goSlice_nat hi (Nat.le_refl _), List.take_length, GoM.lift_ok_bind]
    match hr : src.drop i with
    | [] =>
      rw [hr] at hlen
      rw [if_pos (by simpa using hlen.symm)]
    | [a] | [a, b] | [a, b, c] =>
      rw [hr] at hlen
      simp only [List.length_cons, List.length_nil] at hlen
      rw [if_neg (by omega), naluSize_short _ (by simp)]
      rfl
    | a :: b :: c :: d :: r =>
      rw [hr] at hlen
      simp only [List.length_cons] at hlen
      rw [if_neg (by omega), naluSize_cons, GoM.lift_ok_bind]
      dsimp only [naluBytesLen]
      by_cases h0 : Spec.Flv.nat [a, b, c, d] = 0
      · rw [if_pos h0, if_pos h0]
      rw [if_neg h0, if_neg h0]
      generalize Spec.Flv.nat [a, b, c, d] = n at h0
      have hdr : src.drop (i + 4) = r := by
        rw [← List.drop_drop, hr]; rfl
      by_cases h1 : r.length < n
      · rw [if_pos (by omega), if_pos h1]
      rw [if_neg (by omega), if_neg h1]
      have hlt : i + 4 < src.length := by omega
      rw [show ((i + 4 : Nat) : Int) + (n : Int) = ((i + 4 + n : Nat) : Int) by push_cast; rfl]
      rw [goIndex_nat hlt, goSlice_nat (Nat.le_add_right _ _) (by omega), GoM.lift_ok_bind, GoM.lift_ok_bind]
      have hnal : (src.take (i + 4 + n)).drop (i + 4) = r.take n := by
        rw [List.drop_take, hdr]; congr 1; omega
      have hd2 : src.drop (i + 4 + n) = r.drop n := by
        rw [← List.drop_drop, hdr]
      have hut : unitType (r.take n) = src[i + 4].toNat % 32 := by
        rw [List.getElem_eq_getElem?_get, ← hdr]
        have : (src.drop (i + 4)).take n = src[i+4] :: ((src.drop (i + 5)).take (n - 1)) := by
          rw [List.drop_eq_getElem_cons hlt, List.take_cons (by omega)]
        rw [this]
        simp [unitType]
      rw [hnal, ih _ _ _ _ (by omega), ih _ _ _ _ (by omega), ih _ _ _ _ (by omega), hd2]
      simp only [and31_eq, ← hut]
      rfl

/-! ## Well-formed input -/

/-- What the loop writes for a list of supported units, write call by write call. -/
def unitChunks (saved : Bytes) : List Bytes → Bytes → Bool → Bool → List Bytes
  | [], _, _, _ => []
  | n :: ns, sp, has, wr =>
    if unitType n = 9 then unitChunks saved ns sp has wr
    else if unitType n = 5 then
      (if wr then [] else if has then [sp] else [saved]) ++ [[0, 0, 0, 1], n] ++ unitChunks saved ns sp has true
    else if unitType n = 1 ∨ unitType n = 6 then [[0, 0, 0, 1], n] ++ unitChunks saved ns sp has wr
    else unitChunks saved ns (sp ++ [0, 0, 0, 1] ++ n) true wr

theorem emits_writeUnit (n : Bytes) : Emits (writeUnit n) [[0, 0, 0, 1], n] (.ok ()) :=
  (Emits.write startCode).bind (Emits.write n)

theorem emits_writeParams (p : Parser) (sp : Bytes) (has wr : Bool) :
    Emits (writeParams p sp has wr) (if wr then [] else if has then [sp] else [p.specificInfo]) (.ok ()) := by
  unfold writeParams
  cases wr <;> cases has <;> first | exact Emits.write _ | exact Emits.pure _

theorem nat_four (n : Nat) (h : n < 2 ^ 32) : ∃ a b c d, Spec.Flv.beN 4 n = [a, b, c, d] ∧ Spec.Flv.nat [a, b, c, d] = n := by
  refine ⟨_, _, _, _, rfl, ?_⟩
  have := Spec.Flv.nat_beN_lt 4 n (by simpa using h)
  simpa [Spec.Flv.beN] using this

theorem loop_emits (p : Parser) (nals : List Bytes) (h : ∀ n ∈ nals, Supported n) (fuel : Nat)
    (hf : nals.length < fuel) (sp : Bytes) (has wr : Bool) :
    Emits (loopL p fuel (avcc nals) sp has wr) (unitChunks p.specificInfo nals sp has wr) (.ok ()) := by
  induction nals generalizing fuel sp has wr with
  | nil =>
    match fuel, hf with
    | f + 1, _ => exact Emits.pure ()
  | cons n ns ih =>
    match fuel, hf with
    | f + 1, hf =>
      have hf' : ns.length < f := by simpa using hf
      obtain ⟨hne, hlt, hty⟩ := h n (by simp)
      have ih := ih (fun m hm => h m (by simp [hm])) f hf'
      obtain ⟨a, b, c, d, hb, hv⟩ := nat_four n.length hlt
      have he : avcc (n :: ns) = a :: b :: c :: d :: (n ++ avcc ns) := by
        simp [avcc, hb]
      rw [he, loopL, unitChunks]
      simp only [hv]
      rw [if_neg (by simpa using hne), if_neg (by simp)]
      simp only [List.take_left, List.drop_left]
      split
      · exact ih ..
      split
      · rw [List.append_assoc]
        exact (emits_writeParams p sp has wr).bind ((emits_writeUnit n).bind (ih ..))
      split
      · exact (emits_writeUnit n).bind (ih ..)
      · rw [if_pos (by simp at hty; omega)]
        exact ih ..

theorem annexB_filter_cons (f : Bytes → Bool) (n : Bytes) (ns : List Bytes) :
    annexB ((n :: ns).filter f) = (if f n then [0, 0, 0, 1] ++ n else []) ++ annexB (ns.filter f) := by
  rw [List.filter_cons]
  split <;> simp [annexB]

theorem unitChunks_written (saved : Bytes) (nals : List Bytes) (h : ∀ n ∈ nals, Supported n) (sp : Bytes) (has : Bool) :
    (unitChunks saved nals sp has true).flatten = annexB (nals.filter isPicture) := by
  induction nals generalizing sp has with
  | nil => rfl
  | cons n ns ih =>
    have hty := (h n (by simp)).2.2
    have ih := ih (fun m hm => h m (by simp [hm]))
    rw [unitChunks, annexB_filter_cons]
    simp only [isPicture]
    simp at hty
    rcases hty with e | e | e | e | e | e <;> simp [e, ih]

theorem unitChunks_before (saved : Bytes) (nals : List Bytes) (h : ∀ n ∈ nals, Supported n) (sp : Bytes) (has : Bool) :
    (unitChunks saved nals sp has false).flatten =
      annexB ((nals.takeWhile (fun n => !isIdr n)).filter isPicture) ++
      (if (nals.dropWhile (fun n => !isIdr n)).isEmpty then []
       else (if has ∨ ((nals.takeWhile (fun n => !isIdr n)).filter isParam) ≠ [] then
              sp ++ annexB ((nals.takeWhile (fun n => !isIdr n)).filter isParam) else saved)
         ++ annexB ((nals.dropWhile (fun n => !isIdr n)).filter isPicture)) := by
  induction nals generalizing sp has with
  | nil => rfl
  | cons n ns ih =>
    have hty := (h n (by simp)).2.2
    have hw := unitChunks_written saved ns (fun m hm => h m (by simp [hm]))
    have ih := ih (fun m hm => h m (by simp [hm]))
    rw [unitChunks]
    simp at hty
    rcases hty with e | e | e | e | e | e
    case inr.inl =>
      cases has <;>
      simp [e, hw, isIdr, isPicture, isParam, annexB]
    all_goals
      cases has <;>
      simp [e, ih, isIdr, isPicture, isParam, annexB]

/-! ## Arbitrary input -/

theorem nat4_lt (a b c d : UInt8) : Spec.Flv.nat [a, b, c, d] < 2 ^ 32 := by
  have := a.toNat_lt; have := b.toNat_lt; have := c.toNat_lt; have := d.toNat_lt
  simp [Spec.Flv.nat]; omega

theorem beN4_nat (a b c d : UInt8) : Spec.Flv.beN 4 (Spec.Flv.nat [a, b, c, d]) = [a, b, c, d] := by
  have := a.toNat_lt; have := b.toNat_lt; have := c.toNat_lt; have := d.toNat_lt
  simp only [Spec.Flv.nat, List.foldl, Spec.Flv.beN]
  congr 1
  · apply UInt8.toNat_inj.mp; rw [UInt8.toNat_ofNat']; omega
  congr 1
  · apply UInt8.toNat_inj.mp; rw [UInt8.toNat_ofNat']; omega
  congr 1
  · apply UInt8.toNat_inj.mp; rw [UInt8.toNat_ofNat']; omega
  congr 1
  · apply UInt8.toNat_inj.mp; rw [UInt8.toNat_ofNat']; omega

theorem beN2_nat (a b : UInt8) : Spec.Flv.beN 2 (a.toNat <<< 8 ||| b.toNat) = [a, b] := by
  have := a.toNat_lt; have := b.toNat_lt
  have e : a.toNat <<< 8 ||| b.toNat = a.toNat * 256 + b.toNat := by
    rw [← Nat.shiftLeft_add_eq_or_of_lt (by omega), Nat.shiftLeft_eq]
  rw [e]
  simp only [Spec.Flv.beN]
  congr 1
  · apply UInt8.toNat_inj.mp; rw [UInt8.toNat_ofNat']; omega
  congr 1
  · apply UInt8.toNat_inj.mp; rw [UInt8.toNat_ofNat']; omega

theorem or2_lt (a b : UInt8) : (a.toNat <<< 8 ||| b.toNat) < 65536 := by
  have := a.toNat_lt; have := b.toNat_lt
  rw [← Nat.shiftLeft_add_eq_or_of_lt (by omega), Nat.shiftLeft_eq]; omega

theorem loop_total (p : Parser) (fuel : Nat) (rest : Bytes) (hf : rest.length < fuel) (sp : Bytes) (has wr : Bool) :
    ∃ cs r, Emits (loopL p fuel rest sp has wr) cs r ∧
      (r = .err .other ∨ r = .ok () ∧ ∃ nals, rest = avcc nals ∧ ∀ n ∈ nals, Supported n) := by
  induction fuel generalizing rest sp has wr with
  | zero => omega
  | succ f ih =>
    rw [loopL.eq_def]
    match rest with
    | [] => exact ⟨[], _, Emits.pure (), .inr ⟨rfl, [], rfl, by simp⟩⟩
    | [a] | [a, b] | [a, b, c] => exact ⟨[], _, Emits.fail .other, .inl rfl⟩
    | a :: b :: c :: d :: r =>
      dsimp only
      have hlt := nat4_lt a b c d
      have hbe := beN4_nat a b c d
      generalize Spec.Flv.nat [a, b, c, d] = n at hlt hbe
      by_cases h0 : n = 0
      · rw [if_pos h0]; exact ⟨[], _, Emits.fail .other, .inl rfl⟩
      rw [if_neg h0]
      by_cases h1 : r.length < n
      · rw [if_pos h1]; exact ⟨[], _, Emits.fail .other, .inl rfl⟩
      rw [if_neg h1]
      have hlen : (r.take n).length = n := by rw [List.length_take]; omega
      have key : ∀ sp has wr, ∃ cs res, Emits (loopL p f (r.drop n) sp has wr) cs res ∧
          (res = .err .other ∨ res = .ok () ∧ (unitType (r.take n) ∈ [1, 5, 6, 7, 8, 9] →
            ∃ nals, a :: b :: c :: d :: r = avcc nals ∧ ∀ n ∈ nals, Supported n)) := by
        intro sp has wr
        obtain ⟨cs, res, he, hr⟩ := ih (r.drop n) (by simp at hf ⊢; omega) sp has wr
        refine ⟨cs, res, he, hr.imp id (fun ⟨h1, nals, h2, h3⟩ => ⟨h1, fun ht => ⟨r.take n :: nals, ?_, ?_⟩⟩)⟩
        · have : avcc (r.take n :: nals) = Spec.Flv.beN 4 (r.take n).length ++ r.take n ++ avcc nals := by
            simp [avcc]
          rw [this, hlen, hbe, ← h2]
          simp
        · intro m hm
          rcases List.mem_cons.mp hm with rfl | hm
          · exact ⟨by intro he; rw [he] at hlen; simp at hlen; omega, by omega, ht⟩
          · exact h3 m hm
      by_cases t9 : unitType (r.take n) = 9
      · rw [if_pos t9]
        obtain ⟨cs, res, he, hr⟩ := key sp has wr
        exact ⟨cs, res, he, hr.imp id (fun ⟨h, h'⟩ => ⟨h, h' (by simp [t9])⟩)⟩
      rw [if_neg t9]
      by_cases t5 : unitType (r.take n) = 5
      · rw [if_pos t5]
        obtain ⟨cs, res, he, hr⟩ := key sp has true
        exact ⟨_, res, (emits_writeParams p sp has wr).bind ((emits_writeUnit (r.take n)).bind he),
          hr.imp id (fun ⟨h, h'⟩ => ⟨h, h' (by simp [t5])⟩)⟩
      rw [if_neg t5]
      by_cases t1 : unitType (r.take n) = 1 ∨ unitType (r.take n) = 6
      · rw [if_pos t1]
        obtain ⟨cs, res, he, hr⟩ := key sp has wr
        exact ⟨_, res, (emits_writeUnit (r.take n)).bind he,
          hr.imp id (fun ⟨h, h'⟩ => ⟨h, h' (by rcases t1 with e | e <;> simp [e])⟩)⟩
      rw [if_neg t1]
      by_cases t7 : unitType (r.take n) = 7 ∨ unitType (r.take n) = 8
      · rw [if_pos t7]
        obtain ⟨cs, res, he, hr⟩ := key (sp ++ [0, 0, 0, 1] ++ r.take n) true wr
        exact ⟨_, res, he,
          hr.imp id (fun ⟨h, h'⟩ => ⟨h, h' (by rcases t7 with e | e <;> simp [e])⟩)⟩
      rw [if_neg t7]
      exact ⟨[], _, Emits.fail .other, .inl rfl⟩

theorem getAnnexb_eq (p : Parser) (src : Bytes) (h : 4 ≤ src.length) :
    getAnnexbH264 p src = (do
      Sink.write [0, 0, 0, 1, 9, 0xf0]
      loopL p (src.length + 1) src [] false false) := by
  unfold getAnnexbH264
  rw [if_neg (by simp only [naluBytesLen]; omega), loop_eq p src _ 0 _ _ _ (by omega), List.drop_zero]
  rfl

theorem getAnnexb_short (p : Parser) (src : Bytes) (h : src.length < 4) :
    getAnnexbH264 p src = GoM.fail .other := by
  unfold getAnnexbH264
  rw [if_pos (.inr h)]

theorem getAnnexb_total (p : Parser) (src : Bytes) :
    ∃ cs r, Emits (getAnnexbH264 p src) cs r ∧
      (r = .err .other ∨ r = .ok () ∧ ∃ nals, src = avcc nals ∧ nals ≠ [] ∧ ∀ n ∈ nals, Supported n) := by
  by_cases h : src.length < 4
  · rw [getAnnexb_short p src h]; exact ⟨[], _, Emits.fail .other, .inl rfl⟩
  · rw [getAnnexb_eq p src (by omega)]
    obtain ⟨cs, r, he, hr⟩ := loop_total p (src.length + 1) src (by omega) [] false false
    refine ⟨_, r, (Emits.write _).bind he, hr.imp id (fun ⟨h1, nals, h2, h3⟩ => ⟨h1, nals, h2, ?_, h3⟩)⟩
    rintro rfl
    rw [h2] at h
    simp [avcc] at h

theorem avcc_length (nals : List Bytes) : nals.length ≤ (avcc nals).length := by
  induction nals with
  | nil => simp
  | cons n ns ih =>
    have : avcc (n :: ns) = Spec.Flv.beN 4 n.length ++ n ++ avcc ns := by simp [avcc]
    rw [this]; simp; omega

theorem avcc_ge (nals : List Bytes) (h : nals ≠ []) : 4 ≤ (avcc nals).length := by
  match nals, h with
  | n :: ns, _ =>
    have : avcc (n :: ns) = Spec.Flv.beN 4 n.length ++ n ++ avcc ns := by simp [avcc]
    rw [this]; simp

theorem getAnnexb_avcc (p : Parser) (nals : List Bytes) (hne : nals ≠ []) (h : ∀ n ∈ nals, Supported n) :
    ∃ cs, Emits (getAnnexbH264 p (avcc nals)) cs (.ok ()) ∧ cs.flatten = accessUnit p.specificInfo nals := by
  have := avcc_length nals
  rw [getAnnexb_eq p _ (avcc_ge nals hne)]
  refine ⟨_, (Emits.write _).bind (loop_emits p nals h _ (by omega) [] false false), ?_⟩
  rw [List.flatten_append, unitChunks_before _ _ h]
  simp only [accessUnit, params, List.flatten_cons, List.flatten_nil, List.append_nil, List.append_assoc]
  congr 2
  split
  · rfl
  · congr 1
    simp only [Bool.false_eq_true, false_or, ne_eq, List.nil_append, List.isEmpty_iff]
    by_cases hh : (nals.takeWhile (fun n => !isIdr n)).filter isParam = []
    · rw [if_neg (by simp [hh]), if_pos hh]
    · rw [if_pos hh, if_neg hh]

/-! ## Sequence headers -/

theorem isStart_eq (src : Bytes) : isStartAtNaluHeader src = .ok (src.take 4 == [0, 0, 0, 1]) := by
  unfold isStartAtNaluHeader naluBytesLen
  match src with
  | [] | [a] | [a, b] | [a, b, c] => rw [if_pos (by simp)]; simp
  | a :: b :: c :: d :: r =>
    rw [if_neg (by simp)]
    simp only [show goIndex (a :: b :: c :: d :: r) 0 = .ok a from rfl,
      show goIndex (a :: b :: c :: d :: r) 1 = .ok b from rfl,
      show goIndex (a :: b :: c :: d :: r) 2 = .ok c from rfl,
      show goIndex (a :: b :: c :: d :: r) 3 = .ok d from rfl, Res.bind_ok]
    by_cases ha : a = 0 <;> by_cases hb : b = 0 <;> by_cases hc : c = 0 <;> simp [ha, hb, hc]

theorem beN2_split (n : Nat) (h : n < 65536) :
    ∃ a b : UInt8, Spec.Flv.beN 2 n = [a, b] ∧ (a.toNat <<< 8 ||| b.toNat) = n := by
  refine ⟨_, _, rfl, ?_⟩
  rw [← Nat.shiftLeft_add_eq_or_of_lt (UInt8.toNat_lt _), Nat.shiftLeft_eq, UInt8.toNat_ofNat', UInt8.toNat_ofNat']
  rw [Nat.pow_one, Nat.pow_zero]
  omega

theorem cons_of_pos {α} {l : List α} (h : 0 < l.length) : ∃ a t, l = a :: t := by
  cases l with
  | nil => simp at h
  | cons a t => exact ⟨a, t, rfl⟩

theorem parseSpecific_ok (p : Parser) (src sps pps ext : Bytes) (h : Record src sps pps ext) :
    parseSpecificInfo src p = (.ok (), { p with specificInfo := p.specificInfo ++ annexB [sps, pps ++ ext] }) := by
  obtain ⟨h1, h2, h3, h4, v, pr, co, le, ls, ns, np, rfl⟩ := h
  have l1 : 0 < sps.length := List.length_pos_iff.mpr h1
  have l2 : 0 < pps.length := List.length_pos_iff.mpr h3
  obtain ⟨a, b, hab, hv⟩ := beN2_split _ h2
  obtain ⟨a', b', hab', hv'⟩ := beN2_split _ h4
  have hsrc : avcRecord v pr co le ls ns sps np pps ext =
      v :: pr :: co :: le :: ls :: ns :: a :: b :: (sps ++ (np :: a' :: b' :: (pps ++ ext))) := by
    simp [avcRecord, hab, hab']
  rw [hsrc]
  generalize hs : v :: pr :: co :: le :: ls :: ns :: a :: b :: (sps ++ (np :: a' :: b' :: (pps ++ ext))) = src
  have hl : src.length = 8 + (sps.length + (3 + (pps.length + ext.length))) := by
    subst hs; simp; omega
  have d8 : src.drop 8 = sps ++ (np :: a' :: b' :: (pps ++ ext)) := by subst hs; rfl
  have g6 : goIndex src 6 = .ok a := by subst hs; rfl
  have g7 : goIndex src 7 = .ok b := by subst hs; rfl
  have s8 : goSlice src 8 src.length = .ok (src.drop 8) := by
    have := goSlice_nat (l := src) (a := 8) (b := src.length) (by omega) (by omega)
    rwa [List.take_length] at this
  have s8' : goSlice src 8 (8 + (sps.length : Int)) = .ok sps := by
    have := goSlice_nat (l := src) (a := 8) (b := 8 + sps.length) (by omega) (by omega)
    rw [List.drop_take, d8] at this
    simpa using this
  have s9 : goSlice src (8 + (sps.length : Int)) src.length = .ok (np :: a' :: b' :: (pps ++ ext)) := by
    have := goSlice_nat (l := src) (a := 8 + sps.length) (b := src.length) (by omega) (by omega)
    rw [List.take_length, ← List.drop_drop, d8] at this
    simpa using this
  have s10 : goSlice (np :: a' :: b' :: (pps ++ ext)) 3 ((np :: a' :: b' :: (pps ++ ext)).length : Nat) = .ok (pps ++ ext) := by
    have := goSlice_nat (l := np :: a' :: b' :: (pps ++ ext)) (a := 3) (b := (np :: a' :: b' :: (pps ++ ext)).length) (by simp) (by omega)
    rw [List.take_length] at this
    exact this
  unfold parseSpecificInfo
  dsimp only
  rw [if_neg (by omega), g6, g7, s8]
  simp only [Res.bind_ok, hv, hv']
  rw [if_neg (by rw [d8]; simp; omega), s8', s9]
  simp only [Res.bind_ok]
  rw [if_neg (by simp; omega)]
  simp only [show goIndex (np :: a' :: b' :: (pps ++ ext)) 1 = .ok a' from rfl,
    show goIndex (np :: a' :: b' :: (pps ++ ext)) 2 = .ok b' from rfl, Res.bind_ok, hv', s10]
  rw [if_neg (by simp; omega)]
  simp [startCode, annexB]

theorem parseSpecific_cases (p : Parser) (src : Bytes) :
    parseSpecificInfo src p = (.err .other, p) ∨ ∃ sps pps ext, Record src sps pps ext := by
  by_cases h9 : src.length < 9
  · left; unfold parseSpecificInfo; dsimp only; rw [if_pos h9]
  obtain ⟨v, src, rfl⟩ := cons_of_pos (l := src) (by omega)
  obtain ⟨pr, src, rfl⟩ := cons_of_pos (l := src) (by simp at h9; omega)
  obtain ⟨co, src, rfl⟩ := cons_of_pos (l := src) (by simp at h9; omega)
  obtain ⟨le, src, rfl⟩ := cons_of_pos (l := src) (by simp at h9; omega)
  obtain ⟨ls, src, rfl⟩ := cons_of_pos (l := src) (by simp at h9; omega)
  obtain ⟨ns, src, rfl⟩ := cons_of_pos (l := src) (by simp at h9; omega)
  obtain ⟨a, src, rfl⟩ := cons_of_pos (l := src) (by simp at h9; omega)
  obtain ⟨b, r, rfl⟩ := cons_of_pos (l := src) (by simp at h9; omega)
  have hb := beN2_nat a b
  have hlt := or2_lt a b
  generalize hs : v :: pr :: co :: le :: ls :: ns :: a :: b :: r = src at h9
  have hl : src.length = 8 + r.length := by subst hs; simp; omega
  have d8 : src.drop 8 = r := by subst hs; rfl
  have g6 : goIndex src 6 = .ok a := by subst hs; rfl
  have g7 : goIndex src 7 = .ok b := by subst hs; rfl
  have s8 : goSlice src 8 src.length = .ok r := by
    have := goSlice_nat (l := src) (a := 8) (b := src.length) (by omega) (by omega)
    rw [List.take_length, d8] at this
    exact this
  unfold parseSpecificInfo
  dsimp only
  rw [if_neg h9, g6, g7, s8]
  simp only [Res.bind_ok]
  generalize a.toNat <<< 8 ||| b.toNat = n at hb hlt
  by_cases hn : r.length < n ∨ n = 0
  · left; rw [if_pos hn]
  rw [if_neg hn]
  have s8' : goSlice src 8 (8 + (n : Int)) = .ok (r.take n) := by
    have := goSlice_nat (l := src) (a := 8) (b := 8 + n) (by omega) (by omega)
    rw [List.drop_take, d8] at this
    simpa using this
  have s9 : goSlice src (8 + (n : Int)) src.length = .ok (r.drop n) := by
    have := goSlice_nat (l := src) (a := 8 + n) (b := src.length) (by omega) (by omega)
    rw [List.take_length, ← List.drop_drop, d8] at this
    simpa using this
  rw [s8', s9]
  simp only [Res.bind_ok]
  by_cases h4 : (r.drop n).length < 4
  · left; rw [if_pos h4]
  rw [if_neg h4]
  generalize ht : r.drop n = q at h4
  obtain ⟨np, q, rfl⟩ := cons_of_pos (l := q) (by omega)
  obtain ⟨a', q, rfl⟩ := cons_of_pos (l := q) (by simp at h4; omega)
  obtain ⟨b', t, rfl⟩ := cons_of_pos (l := q) (by simp at h4; omega)
  have hb' := beN2_nat a' b'
  have hlt' := or2_lt a' b'
  have s10 : goSlice (np :: a' :: b' :: t) 3 ((np :: a' :: b' :: t).length : Nat) = .ok t := by
    have := goSlice_nat (l := np :: a' :: b' :: t) (a := 3) (b := (np :: a' :: b' :: t).length) (by simp) (by omega)
    rw [List.take_length] at this
    exact this
  simp only [show goIndex (np :: a' :: b' :: t) 1 = .ok a' from rfl,
    show goIndex (np :: a' :: b' :: t) 2 = .ok b' from rfl, Res.bind_ok, s10]
  generalize a'.toNat <<< 8 ||| b'.toNat = k at hb' hlt'
  by_cases hk : t.length < k ∨ k = 0
  · left; rw [if_pos hk]
  right
  have e1 : (r.take n).length = n := by rw [List.length_take]; omega
  have e2 : (t.take k).length = k := by rw [List.length_take]; omega
  refine ⟨r.take n, t.take k, t.drop k, ?_, by omega, ?_, by omega, v, pr, co, le, ls, ns, np, ?_⟩
  · intro he; rw [he] at e1; simp at e1; omega
  · intro he; rw [he] at e2; simp at e2; omega
  · rw [← hs, avcRecord, e1, e2, hb, hb']
    have : r = r.take n ++ (np :: a' :: b' :: t) := by rw [← ht, List.take_append_drop]
    conv => lhs; rw [this]
    simp

end Verif.H264
