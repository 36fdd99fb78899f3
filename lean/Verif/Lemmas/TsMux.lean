import Verif.Lemmas.Ts
/-! # Lemmas about `Mux` -/
namespace Verif.Ts

/-! ## The PES header -/

/-- The PES length field. -/
def pesSize (n : Nat) : Nat := if n > 0xffff then 0 else n

/-- The PES header of a packet with `n` media bytes. -/
def pesHead (v : Bool) (n : Nat) (pts dts : Int) : Bytes :=
  if v = true ∧ pts ≠ dts then
    [0, 0, 1, 0xe0, UInt8.ofNat (pesSize (13 + n) / 256), UInt8.ofNat (pesSize (13 + n)), 0x80, 0xc0, 10]
      ++ encodeTs 0x80 pts ++ encodeTs 0xc0 dts
  else
    [0, 0, 1, if v then 0xe0 else 0xc0, UInt8.ofNat (pesSize (8 + n) / 256), UInt8.ofNat (pesSize (8 + n)), 0x80, 0x80, 5]
      ++ encodeTs 0x80 pts

/-- The packet type of video (`true`) and audio (`false`). -/
def mtype (v : Bool) : Int := if v then 0 else 1

theorem encodeTs_lit (f : UInt8) (t : Int) : ∃ a b c d e, encodeTs f t = [a, b, c, d, e] := ⟨_, _, _, _, _, rfl⟩

theorem encodeTs_length (f : UInt8) (t : Int) : (encodeTs f t).length = 5 := rfl

theorem pesHead_length (v : Bool) (n : Nat) (pts dts : Int) :
    (pesHead v n pts dts).length = if v = true ∧ pts ≠ dts then 19 else 14 := by
  unfold pesHead; split <;> simp [encodeTs_length]

theorem generate_ok (v : Bool) (n : Nat) (pts dts : Int) :
    ∃ h, Pes.new.generate (mtype v) n pts dts = .ok ((pesHead v n pts dts).length, ⟨[0x47, 0, 0, 0x10], h⟩)
      ∧ h.take (pesHead v n pts dts).length = pesHead v n pts dts ∧ h.length = 19 := by
  obtain ⟨a, b, c, d, e, h1⟩ := encodeTs_lit 0x80 pts
  obtain ⟨a', b', c', d', e', h2⟩ := encodeTs_lit 0xc0 dts
  rw [pesHead_length]
  by_cases hc : v = true ∧ pts ≠ dts
  · obtain ⟨rfl, hne⟩ := hc
    refine ⟨pesHead true n pts dts, ?_, ?_, ?_⟩
    · have e1 : (mtype true = PktVideo ∧ pts ≠ dts) := ⟨rfl, hne⟩
      unfold Pes.generate
      rw [if_neg (by decide)]
      simp only [Pes.new, if_pos e1]
      unfold pesHead
      simp only [hne, ne_eq, not_false_eq_true, and_self, if_true]
      simp [goSet, goIndex, goCopyAt, orAt, mtype, PktVideo, videoSID, audioSID, h1]
      rw [show (128 : UInt8) ||| 64 = 0xc0 from by decide, h2]
      simp [pesSize]
    · rw [if_pos ⟨rfl, hne⟩]
      apply List.take_of_length_le
      rw [pesHead_length, if_pos ⟨rfl, hne⟩]
      exact Nat.le_refl _
    · rw [pesHead_length, if_pos ⟨rfl, hne⟩]
  · refine ⟨pesHead v n pts dts ++ [0, 0, 0, 0, 0], ?_, ?_, ?_⟩
    · have e1 : ¬ (mtype v = PktVideo ∧ pts ≠ dts) := by
        intro ⟨q, q'⟩; exact hc ⟨by cases v <;> simp_all [mtype, PktVideo], q'⟩
      have e2 : ¬ (mtype v ≠ PktVideo ∧ mtype v ≠ PktAudio) := by cases v <;> decide
      unfold Pes.generate
      rw [if_neg e2]
      simp only [Pes.new, if_neg e1]
      unfold pesHead
      rw [if_neg hc, if_neg hc]
      simp [goSet, goIndex, goCopyAt, orAt, videoSID, audioSID, h1]
      cases v <;> simp [pesSize, mtype, PktVideo]
    · rw [if_neg hc]
      have := pesHead_length v n pts dts
      rw [if_neg hc] at this
      rw [← this, List.take_left]
    · simp [pesHead_length, hc]

/-! ## The state of the muxer -/

/-- `e` with another packet buffer. -/
def Env.pk (e : Env) (b : Bytes) : Env := { e with m := { e.m with tsPacket := b } }

theorem updPacket_ok {f : Bytes → Res Bytes} {e : Env} {b : Bytes} (h : f e.m.tsPacket = .ok b) :
    updPacket f e = (.ok (), e.pk b) := by
  simp [updPacket, GoM.bind_apply, h, Env.pk]

/-- The next continuity counter. -/
def nextCc (c : UInt8) : UInt8 := if c + 1 > 0xf then 0 else c + 1

theorem nextCc_toNat (c : UInt8) (h : c.toNat < 16) : (nextCc c).toNat = (c.toNat + 1) % 16 := by
  have tab : ∀ c : Fin 16, (nextCc (UInt8.ofNat c.val)).toNat = (c.val + 1) % 16 := by decide
  have := tab ⟨c.toNat, h⟩
  simpa using this

/-- The counter of a stream. -/
def ccOf (v : Bool) (m : Muxer) : UInt8 := if v then m.videoCc else m.audioCc

/-- The muxer with the counter of a stream advanced. -/
def bumped (v : Bool) (m : Muxer) : Muxer :=
  if v then { m with videoCc := nextCc m.videoCc } else { m with audioCc := nextCc m.audioCc }

theorem bumpCc_ok (v : Bool) (e : Env) : bumpCc (mtype v) e = (.ok (nextCc (ccOf v e.m)), { e with m := bumped v e.m }) := by
  cases v <;> rfl

theorem bumped_pk (v : Bool) (e : Env) (b : Bytes) : ({ e.pk b with m := bumped v (e.pk b).m } : Env) = Env.pk { e with m := bumped v e.m } b := by
  cases v <;> rfl

theorem orAt_ok (pre : Bytes) (x : UInt8) (rest : Bytes) (v : UInt8) (i : Nat) (hi : i = pre.length) :
    orAt (pre ++ x :: rest) i v = .ok (pre ++ (x ||| v) :: rest) := by
  unfold orAt
  have : goIndex (pre ++ x :: rest) (i : Int) = .ok x := by
    subst hi
    simp [goIndex]
  rw [this]
  simp only [Res.bind_ok]
  exact goSet_at pre x _ rest _ (by omega)

/-- The stuffing that is written after the adaptation field of a short key frame. -/
def junk (total : Nat) : Bytes := UInt8.ofNat (175 - total) :: stuffing (175 - total)

/-- The adaptation field, what is written after it, and the room for payload. -/
inductive Layout (first key : Bool) (dts : Int) (total : Nat) : Option Bytes → Bytes → Nat → Prop
  | pcr (hk : (first && key) = true) (ht : 184 ≤ total) : Layout first key dts total (some (pcrField dts)) [] 176
  | full (hk : (first && key) = false) (ht : 184 ≤ total) : Layout first key dts total none [] 184
  | stuff (hk : (first && key) = false) (ht : total < 184) :
      Layout first key dts total (some (stuffing (183 - total))) [] total
  | short (hk : (first && key) = true) (ht : total < 176) :
      Layout first key dts total (some (pcrField dts)) (junk total) total

/-- muxer.go:100-118 for the first packet of a key frame. -/
theorem putPcr_ok (dts : Int) (b1 b2 b3 : UInt8) (e : Env) (rest : Bytes) (hrest : rest.length = 184)
    (he : e.m.tsPacket = [0x47, b1, b2, b3] ++ rest) :
    ∃ r, putPcr dts true e = (.ok 12, e.pk ([0x47, b1, b2, b3 ||| 0x20, 7] ++ (pcrField dts ++ r))) ∧ r.length = 176 := by
  obtain ⟨r4, r5, r6, r7, r8, r9, r10, r11, rest, rfl⟩ : ∃ a b c d x f g h r, rest = a :: b :: c :: d :: x :: f :: g :: h :: r := by
    rcases rest with _ | ⟨a, _ | ⟨b, _ | ⟨c, _ | ⟨d, _ | ⟨x, _ | ⟨f, _ | ⟨g, _ | ⟨h, r⟩⟩⟩⟩⟩⟩⟩⟩ <;>
      first | (simp at hrest; done) | exact ⟨_, _, _, _, _, _, _, _, _, rfl⟩
  refine ⟨rest, ?_, by simpa using hrest⟩
  have s1 : updPacket (fun b => orAt b 3 0x20) e = (.ok (), e.pk ([0x47, b1, b2, b3 ||| 0x20] ++ r4 :: r5 :: r6 :: r7 :: r8 :: r9 :: r10 :: r11 :: rest)) := by
    apply updPacket_ok
    rw [he]
    exact orAt_ok [0x47, b1, b2] _ _ _ 3 rfl
  have s2 : updPacket (fun b => goSet b 4 0x7) (e.pk ([0x47, b1, b2, b3 ||| 0x20] ++ r4 :: r5 :: r6 :: r7 :: r8 :: r9 :: r10 :: r11 :: rest))
      = (.ok (), e.pk ([0x47, b1, b2, b3 ||| 0x20] ++ 7 :: r5 :: r6 :: r7 :: r8 :: r9 :: r10 :: r11 :: rest)) := by
    apply updPacket_ok
    exact goSet_at [0x47, b1, b2, b3 ||| 0x20] _ _ _ _ rfl
  have s3 : updPacket (fun b => goSet b 5 0x50) (e.pk ([0x47, b1, b2, b3 ||| 0x20] ++ 7 :: r5 :: r6 :: r7 :: r8 :: r9 :: r10 :: r11 :: rest))
      = (.ok (), e.pk ([0x47, b1, b2, b3 ||| 0x20, 7, 0x50] ++ r6 :: r7 :: r8 :: r9 :: r10 :: r11 :: rest)) := by
    apply updPacket_ok
    exact goSet_at [0x47, b1, b2, b3 ||| 0x20, 7] _ _ _ _ rfl
  have s4 : updPacket (fun b => if 6 > b.length then .panic else writePcr b 6 dts) (e.pk ([0x47, b1, b2, b3 ||| 0x20, 7, 0x50] ++ r6 :: r7 :: r8 :: r9 :: r10 :: r11 :: rest))
      = (.ok (), e.pk ([0x47, b1, b2, b3 ||| 0x20, 7, 0x50] ++ ((pcrField dts).drop 1 ++ rest))) := by
    apply updPacket_ok
    show (if 6 > ([0x47, b1, b2, b3 ||| 0x20, 7, 0x50] ++ r6 :: r7 :: r8 :: r9 :: r10 :: r11 :: rest).length then _ else _) = _
    rw [if_neg (by simp)]
    exact writePcr_ok [0x47, b1, b2, b3 ||| 0x20, 7, 0x50] _ _ _ _ _ _ _ 6 rfl dts
  have hp : putPcr dts true e = (.ok 12, e.pk ([0x47, b1, b2, b3 ||| 0x20, 7, 0x50] ++ ((pcrField dts).drop 1 ++ rest))) := by
    unfold putPcr
    rw [if_pos rfl]
    simp only [GoM.bind_apply, s1, s2, s3, s4]
    simp [Env.pk, goIndex, show (4 : UInt8) + (1 + 7) = 12 from by decide]
  rw [hp]
  simp [pcrField]

/-- muxer.go:73-136: header, counter and adaptation field. -/
theorem head_ok (key : Bool) (dts : Int) (total : Nat) (first : Bool) (ad : Option Bytes) (jk : Bytes) (n : Nat)
    (hlay : Layout first key dts total ad jk n) (pid : UInt16) (cc : UInt8) (e : Env)
    (rest : Bytes) (hrest : rest.length = 184)
    (he : e.m.tsPacket = [(0x47 : UInt8), if first then (pid >>> 8).toUInt8 ||| 0x40 else (pid >>> 8).toUInt8, pid.toUInt8, 0x10 ||| cc] ++ rest) :
    ∃ i : UInt8, ∃ r, (putPcr dts (first && key) >>= putStuff total) e
        = (.ok (i, UInt8.ofNat n), e.pk (pktBytes first pid cc ad jk ++ r))
      ∧ i.toNat = (pktBytes first pid cc ad jk).length ∧ r.length = n ∧ i.toNat + n = 188 := by
  generalize hb1 : (if first then (pid >>> 8).toUInt8 ||| 0x40 else (pid >>> 8).toUInt8) = b1 at he
  cases hlay with
  | pcr hk ht =>
    obtain ⟨r, hp, hr⟩ := putPcr_ok dts b1 pid.toUInt8 (0x10 ||| cc) e rest hrest he
    refine ⟨12, r, ?_, by simp [pktBytes, pcrField], hr, rfl⟩
    rw [GoM.bind_apply, hk, hp]
    simp only [putStuff]
    rw [if_neg (by unfold tsDefaultDataLen; omega)]
    simp only [GoM.pure_apply]
    congr 2
    unfold pktBytes
    rw [hb1]
    simp [pcrField]
  | short hk ht =>
    obtain ⟨r, hp, hr⟩ := putPcr_ok dts b1 pid.toUInt8 (0x10 ||| cc) e rest hrest he
    have hrm : (188 - 12 - UInt8.ofNat total : UInt8).toNat = 176 - total := by
      rw [UInt8.toNat_sub, UInt8.toNat_ofNat', show (188 - 12 : UInt8).toNat = 176 from rfl]; omega
    have hj : (junk total).length = 176 - total := by simp [junk, stuffing_length]; omega
    refine ⟨12 + (188 - 12 - UInt8.ofNat total), r.drop (176 - total), ?_, ?_, by simp [hr]; omega, ?_⟩
    · rw [GoM.bind_apply, hk, hp]
      simp only [putStuff]
      rw [if_pos (by unfold tsDefaultDataLen; omega)]
      have o20 : ((0x10 ||| cc) ||| 0x20) ||| 0x20 = (0x10 ||| cc) ||| (0x20 : UInt8) := by rw [UInt8.or_assoc, show (0x20 : UInt8) ||| 0x20 = 0x20 from by decide]
      have s1 : updPacket (fun b => orAt b 3 0x20) (e.pk ([0x47, b1, pid.toUInt8, (0x10 ||| cc) ||| 0x20, 7] ++ (pcrField dts ++ r)))
          = (.ok (), e.pk (([0x47, b1, pid.toUInt8, (0x10 ||| cc) ||| 0x20, 7] ++ pcrField dts) ++ r)) := by
        apply updPacket_ok
        have := orAt_ok [0x47, b1, pid.toUInt8] ((0x10 ||| cc) ||| 0x20) (7 :: (pcrField dts ++ r)) 0x20 3 rfl
        rw [o20] at this
        rw [List.append_assoc]
        exact this
      have s2 : updPacket (fun b => writeStuff b (12 : UInt8).toNat (188 - 12 - UInt8.ofNat total)) (e.pk (([0x47, b1, pid.toUInt8, (0x10 ||| cc) ||| 0x20, 7] ++ pcrField dts) ++ r))
          = (.ok (), e.pk (([0x47, b1, pid.toUInt8, (0x10 ||| cc) ||| 0x20, 7] ++ pcrField dts) ++ (junk total ++ r.drop (176 - total)))) := by
        apply updPacket_ok
        have := writeStuff_ok ([0x47, b1, pid.toUInt8, (0x10 ||| cc) ||| 0x20, 7] ++ pcrField dts) r 12 (188 - 12 - UInt8.ofNat total) rfl (by omega) (by omega)
        rw [hrm, show 176 - total - 1 = 175 - total from by omega] at this
        exact this
      simp only [GoM.bind_apply, s1, s2, GoM.pure_apply]
      congr 2
      unfold pktBytes
      rw [hb1]
      simp [pcrField]
    · rw [UInt8.toNat_add, hrm]
      simp [pktBytes, pcrField, hj]
      omega
    · rw [UInt8.toNat_add, hrm]
      simp
      omega
  | full hk ht =>
    refine ⟨4, rest, ?_, by simp [pktBytes], hrest, rfl⟩
    rw [GoM.bind_apply]
    have hp : putPcr dts (first && key) e = (.ok 4, e) := by
      unfold putPcr; rw [hk]; rfl
    rw [hp]
    simp only [putStuff]
    rw [if_neg (by unfold tsDefaultDataLen; omega)]
    simp only [GoM.pure_apply]
    congr 1
    unfold pktBytes
    rw [hb1]
    simp only [Option.isSome_none, Bool.false_eq_true, if_false, List.append_nil, ← he]
    rfl
  | stuff hk ht =>
    have hrm : (188 - 4 - UInt8.ofNat total : UInt8).toNat = 184 - total := by
      rw [UInt8.toNat_sub, UInt8.toNat_ofNat', show (188 - 4 : UInt8).toNat = 184 from rfl]; omega
    refine ⟨4 + (188 - 4 - UInt8.ofNat total), rest.drop (184 - total), ?_, ?_, by simp [hrest]; omega, ?_⟩
    · rw [GoM.bind_apply]
      have hp : putPcr dts (first && key) e = (.ok 4, e) := by
        unfold putPcr; rw [hk]; rfl
      rw [hp]
      simp only [putStuff]
      rw [if_pos (by unfold tsDefaultDataLen; omega)]
      have s1 : updPacket (fun b => orAt b 3 0x20) e = (.ok (), e.pk ([0x47, b1, pid.toUInt8, (0x10 ||| cc) ||| 0x20] ++ rest)) := by
        apply updPacket_ok
        rw [he]
        exact orAt_ok [0x47, b1, pid.toUInt8] _ _ _ 3 rfl
      have s2 : updPacket (fun b => writeStuff b (4 : UInt8).toNat (188 - 4 - UInt8.ofNat total)) (e.pk ([0x47, b1, pid.toUInt8, (0x10 ||| cc) ||| 0x20] ++ rest))
          = (.ok (), e.pk ([0x47, b1, pid.toUInt8, (0x10 ||| cc) ||| 0x20] ++ (UInt8.ofNat (184 - total - 1) :: stuffing (184 - total - 1) ++ rest.drop (184 - total)))) := by
        apply updPacket_ok
        have := writeStuff_ok [0x47, b1, pid.toUInt8, (0x10 ||| cc) ||| 0x20] rest 4 (188 - 4 - UInt8.ofNat total) rfl (by omega) (by omega)
        rw [hrm] at this
        exact this
      simp only [GoM.bind_apply, s1, s2, GoM.pure_apply]
      congr 2
      unfold pktBytes
      rw [hb1, show 184 - total - 1 = 183 - total from by omega]
      simp [stuffing_length]
    · rw [UInt8.toNat_add, hrm]
      simp [pktBytes, stuffing_length]
      omega
    · rw [UInt8.toNat_add, hrm]
      simp
      omega

/-- muxer.go:138-174: the payload. -/
theorem payload_ok (pes : Pes) (media : Bytes) (l : Loop) (i : UInt8) (n : Nat) (e : Env) (pre r : Bytes)
    (he : e.m.tsPacket = pre ++ r) (hi : i.toNat = pre.length) (hr : r.length = n) (hin : i.toNat + n = 188)
    (h1 : l.hdrLen ≤ n) (h2 : l.headIndex + l.hdrLen ≤ pes.pesHeader.length)
    (h3 : l.dataIndex + (n - l.hdrLen) ≤ media.length) :
    (putHeader pes l i (UInt8.ofNat n) >>= fun x => putMedia media x.2.2 x.1 x.2.1) e
      = (.ok { l with total := l.total - l.hdrLen - (n - l.hdrLen), hdrLen := 0, headIndex := l.headIndex + l.hdrLen,
                      dataIndex := l.dataIndex + (n - l.hdrLen) },
         e.pk (pre ++ ((pes.pesHeader.drop l.headIndex).take l.hdrLen ++ (media.drop l.dataIndex).take (n - l.hdrLen)))) := by
  have hn : (UInt8.ofNat n).toNat = n := by rw [UInt8.toNat_ofNat']; omega
  have hh : (UInt8.ofNat l.hdrLen).toNat = l.hdrLen := by rw [UInt8.toNat_ofNat']; omega
  have hi8 := i.toNat_lt
  -- the header
  have step1 : putHeader pes l i (UInt8.ofNat n) e
      = (.ok (i + UInt8.ofNat l.hdrLen, UInt8.ofNat n - UInt8.ofNat l.hdrLen,
          { l with total := l.total - l.hdrLen, hdrLen := 0, headIndex := l.headIndex + l.hdrLen }),
         e.pk (pre ++ ((pes.pesHeader.drop l.headIndex).take l.hdrLen ++ r.drop l.hdrLen))) := by
    unfold putHeader
    by_cases hz : l.hdrLen > 0
    · rw [if_pos hz]
      have hmin : (if UInt8.ofNat l.hdrLen ≤ UInt8.ofNat n then UInt8.ofNat l.hdrLen else UInt8.ofNat n) = UInt8.ofNat l.hdrLen := by
        rw [if_pos]
        rw [UInt8.le_iff_toNat_le, hn, hh]; exact h1
      simp only [hmin, hh, GoM.bind_apply, GoM.lift_apply]
      rw [goSlice_ok pes.pesHeader _ _ l.headIndex (l.headIndex + l.hdrLen) rfl rfl (by omega) h2]
      have hs : (pes.pesHeader.take (l.headIndex + l.hdrLen)).drop l.headIndex = (pes.pesHeader.drop l.headIndex).take l.hdrLen := by
        rw [List.drop_take, Nat.add_sub_cancel_left]
      rw [hs]
      have hsl : ((pes.pesHeader.drop l.headIndex).take l.hdrLen).length = l.hdrLen := by simp; omega
      simp only
      rw [updPacket_ok (b := pre ++ ((pes.pesHeader.drop l.headIndex).take l.hdrLen ++ r.drop l.hdrLen))]
      · simp
      · rw [he]
        have := goCopyAt_at pre r ((pes.pesHeader.drop l.headIndex).take l.hdrLen) i.toNat hi (by rw [hsl, hr]; exact h1)
        rw [hsl] at this
        exact this
    · have hz' : l.hdrLen = 0 := by omega
      rw [if_neg hz]
      obtain ⟨t, hl, hI, di, fi⟩ := l
      simp only at hz'
      subst hz'
      simp only [GoM.pure_apply, List.take_zero, List.nil_append, List.drop_zero, ← he]
      simp
      rfl
  rw [GoM.bind_apply, step1]
  simp only
  have hsub : (UInt8.ofNat n - UInt8.ofNat l.hdrLen).toNat = n - l.hdrLen := by
    rw [UInt8.toNat_sub, hn, hh]; omega
  unfold putMedia
  by_cases hz : UInt8.ofNat n - UInt8.ofNat l.hdrLen > 0
  · rw [if_pos hz]
    simp only [hsub]
    rw [if_neg (by omega)]
    simp only [GoM.bind_apply, GoM.lift_apply]
    rw [goSlice_ok media _ _ l.dataIndex (l.dataIndex + (n - l.hdrLen)) rfl rfl (by omega) h3]
    have hs : (media.take (l.dataIndex + (n - l.hdrLen))).drop l.dataIndex = (media.drop l.dataIndex).take (n - l.hdrLen) := by
      rw [List.drop_take, Nat.add_sub_cancel_left]
    rw [hs]
    have hsl : ((media.drop l.dataIndex).take (n - l.hdrLen)).length = n - l.hdrLen := by simp; omega
    have hpl : (i + UInt8.ofNat l.hdrLen).toNat = pre.length + l.hdrLen := by
      rw [UInt8.toNat_add, hh, ← hi]; omega
    have hsl2 : ((pes.pesHeader.drop l.headIndex).take l.hdrLen).length = l.hdrLen := by simp; omega
    simp only
    rw [updPacket_ok (b := pre ++ ((pes.pesHeader.drop l.headIndex).take l.hdrLen ++ (media.drop l.dataIndex).take (n - l.hdrLen)))]
    · simp only [GoM.pure_apply]
      rfl
    · show goCopyAt (pre ++ (_ ++ r.drop l.hdrLen)) _ _ = _
      rw [← List.append_assoc]
      have := goCopyAt_at (pre ++ (pes.pesHeader.drop l.headIndex).take l.hdrLen) (r.drop l.hdrLen)
        ((media.drop l.dataIndex).take (n - l.hdrLen)) (i + UInt8.ofNat l.hdrLen).toNat (by rw [hpl, List.length_append, hsl2])
        (by rw [hsl]; simp [hr])
      rw [this, hsl]
      simp [hr, h1]
  · rw [if_neg hz]
    have : n - l.hdrLen = 0 := by
      rw [← hsub]
      have : ¬ 0 < (UInt8.ofNat n - UInt8.ofNat l.hdrLen).toNat := fun h => hz (UInt8.lt_iff_toNat_lt.mpr h)
      omega
    have hd : r.drop l.hdrLen = [] := by apply List.drop_of_length_le; omega
    simp [this, hd]

/-- The PID of a stream. -/
def pidOf (v : Bool) : UInt16 := if v then 0x100 else 0x101

theorem pktBytes_append (start : Bool) (pid : UInt16) (cc : UInt8) (ad : Option Bytes) (pl : Bytes) :
    pktBytes start pid cc ad [] ++ pl = pktBytes start pid cc ad pl := by
  simp [pktBytes]

theorem pktBytes_append' (start : Bool) (pid : UInt16) (cc : UInt8) (ad : Option Bytes) (jk pl : Bytes) :
    pktBytes start pid cc ad jk ++ pl = pktBytes start pid cc ad (jk ++ pl) := by
  simp [pktBytes]

/-- muxer.go:73-183: one iteration. -/
theorem muxBody_ok (p : Packet) (v key : Bool) (dts : Int) (h : Bytes) (l : Loop) (e : Env) (ad : Option Bytes) (jk : Bytes) (n : Nat)
    (ht : p.type = mtype v) (hb : e.m.tsPacket.length = 188) (hlay : Layout l.first key dts l.total ad jk n)
    (h1 : l.hdrLen ≤ n) (h2 : l.headIndex + l.hdrLen ≤ h.length) (h3 : l.dataIndex + (n - l.hdrLen) ≤ p.media.length) :
    ∀ P, P = pktBytes l.first (pidOf v) (nextCc (ccOf v e.m)) ad
      (jk ++ ((h.drop l.headIndex).take l.hdrLen ++ (p.media.drop l.dataIndex).take (n - l.hdrLen))) →
    P.length = 188 ∧
    muxBody p key dts ⟨[0x47, (pidOf v >>> 8).toUInt8, (pidOf v).toUInt8, 0x10], h⟩ l e =
      (match (Sink.write P e.w).1 with
        | .ok _ => .ok { total := l.total - l.hdrLen - (n - l.hdrLen), hdrLen := 0, headIndex := l.headIndex + l.hdrLen,
                         dataIndex := l.dataIndex + (n - l.hdrLen), first := false }
        | .err x => .err x
        | .panic => .panic
        | .diverge => .diverge,
       { m := { bumped v e.m with tsPacket := P }, w := (Sink.write P e.w).2 }) := by
  intro P hPdef
  obtain ⟨q0, q1, q2, q3, rest, hq⟩ : ∃ a b c d r, e.m.tsPacket = a :: b :: c :: d :: r := by
    rcases hq : e.m.tsPacket with _ | ⟨a, _ | ⟨b, _ | ⟨c, _ | ⟨d, r⟩⟩⟩⟩ <;>
      first | (rw [hq] at hb; simp at hb; done) | exact ⟨_, _, _, _, _, rfl⟩
  have hrest : rest.length = 184 := by rw [hq] at hb; simpa using hb
  generalize hpid : pidOf v = pid at *
  -- header
  have s1 : updPacket (fun b => goCopyAt b 0 (([0x47, (pid >>> 8).toUInt8, pid.toUInt8, 0x10] : Bytes).take 4)) e
      = (.ok (), e.pk ([(0x47 : UInt8), (pid >>> 8).toUInt8, pid.toUInt8, 0x10] ++ rest)) := by
    apply updPacket_ok
    rw [hq]
    simp [goCopyAt]
  have s2 : putStart l.first (e.pk ([(0x47 : UInt8), (pid >>> 8).toUInt8, pid.toUInt8, 0x10] ++ rest))
      = (.ok (), e.pk ([(0x47 : UInt8), if l.first then (pid >>> 8).toUInt8 ||| 0x40 else (pid >>> 8).toUInt8, pid.toUInt8, 0x10] ++ rest)) := by
    cases l.first with
    | false => rfl
    | true =>
      unfold putStart
      simp only [if_true]
      apply updPacket_ok
      exact orAt_ok [0x47] _ _ _ 1 rfl
  generalize hb1 : (if l.first then (pid >>> 8).toUInt8 ||| 0x40 else (pid >>> 8).toUInt8) = b1 at s2
  have s3 := bumpCc_ok v (e.pk ([(0x47 : UInt8), b1, pid.toUInt8, 0x10] ++ rest))
  rw [bumped_pk] at s3
  have hcc : ccOf v (e.pk ([(0x47 : UInt8), b1, pid.toUInt8, 0x10] ++ rest)).m = ccOf v e.m := by cases v <;> rfl
  rw [hcc] at s3
  generalize hec : ({ e with m := bumped v e.m } : Env) = ec at s3
  have hecw : ec.w = e.w := by rw [← hec]
  have hecm : ec.m = bumped v e.m := by rw [← hec]
  generalize hccv : nextCc (ccOf v e.m) = cc at *
  have s4 : updPacket (fun b => orAt b 3 cc) (ec.pk ([(0x47 : UInt8), b1, pid.toUInt8, 0x10] ++ rest))
      = (.ok (), ec.pk ([(0x47 : UInt8), b1, pid.toUInt8, 0x10 ||| cc] ++ rest)) :=
    updPacket_ok (orAt_ok [0x47, b1, pid.toUInt8] _ _ _ 3 rfl)
  obtain ⟨i, r, s5, hi, hr, hin⟩ := head_ok key dts l.total l.first ad jk n hlay pid cc
    (ec.pk ([(0x47 : UInt8), b1, pid.toUInt8, 0x10 ||| cc] ++ rest)) rest hrest (by rw [hb1]; rfl)
  have s6 := payload_ok ⟨[0x47, (pid >>> 8).toUInt8, pid.toUInt8, 0x10], h⟩ p.media l i n
    (ec.pk (pktBytes l.first pid cc ad jk ++ r)) (pktBytes l.first pid cc ad jk) r rfl hi hr hin h1 h2 h3
  rw [pktBytes_append' l.first pid cc ad jk (_ ++ _), ← hPdef] at s6
  have hP : P.length = 188 := by
    rw [hPdef, ← pktBytes_append', List.length_append, ← hi, ← hin]
    simp; omega
  refine ⟨hP, ?_⟩
  unfold muxBody
  rw [ht]
  rw [GoM.bind_apply] at s5
  rw [GoM.bind_apply] at s6
  simp only [GoM.bind_apply, s1, s2, s3, s4]
  rcases ha : putPcr dts (l.first && key) (ec.pk ([(0x47 : UInt8), b1, pid.toUInt8, 0x10 ||| cc] ++ rest)) with ⟨ra, ea⟩
  rw [ha] at s5
  cases ra with
  | err _ => simp at s5
  | panic => simp at s5
  | diverge => simp at s5
  | ok j =>
    simp only at s5 ⊢
    rw [s5]
    simp only
    have hpp : ∀ b c : Bytes, (ec.pk b).pk c = ec.pk c := fun _ _ => rfl
    rw [hpp]
    rcases hb : putHeader ⟨[0x47, (pid >>> 8).toUInt8, pid.toUInt8, 0x10], h⟩ l i (UInt8.ofNat n) (ec.pk (pktBytes l.first pid cc ad jk ++ r)) with ⟨rb, eb⟩
    rw [hb] at s6
    cases rb with
    | err _ => simp at s6
    | panic => simp at s6
    | diverge => simp at s6
    | ok x =>
      obtain ⟨x1, x2, x3⟩ := x
      simp only at s6 ⊢
      rw [s6]
      simp only [GoM.get_apply, hpp]
      have hw : (ec.pk P).w = e.w := hecw
      have hm : (ec.pk P).m = { bumped v e.m with tsPacket := P } := by rw [← hecm]; rfl
      rw [show (ec.pk P).m.tsPacket = P from rfl]
      unfold Env.write
      rw [hw, hm]
      cases (Sink.write P e.w).1 <;> rfl

/-! ## The loop -/

theorem runChunks_calls_le (cs : List Bytes) (w : Sink) : w.calls ≤ (runChunks cs w).2.calls := by
  induction cs generalizing w with
  | nil => exact Nat.le_refl _
  | cons c cs ih =>
    simp only [runChunks, GoM.bind_apply, Sink.write]
    cases w.plan w.calls with
    | none => exact Nat.le_trans (Nat.le_succ _) (ih { w with out := w.out ++ c, calls := w.calls + 1 })
    | some n => exact Nat.le_succ _

/-- The packets for the PES bytes `data`; the counter was `cc` before. -/
def cut (v key : Bool) (dts : Int) : Nat → Bool → UInt8 → Bytes → List Spec.Ts.TsPacket
  | 0, _, _, _ => []
  | fuel + 1, first, cc, data =>
    if data = [] then []
    else if (first && key) = true ∧ data.length < 176 then
      [⟨first, (pidOf v).toNat, (nextCc cc).toNat, some (pcrField dts), junk data.length ++ data⟩]
    else if (first && key) = true then
      ⟨first, (pidOf v).toNat, (nextCc cc).toNat, some (pcrField dts), data.take 176⟩ ::
        cut v key dts fuel false (nextCc cc) (data.drop 176)
    else if data.length < 184 then [⟨first, (pidOf v).toNat, (nextCc cc).toNat, some (stuffing (183 - data.length)), data⟩]
    else ⟨first, (pidOf v).toNat, (nextCc cc).toNat, none, data.take 184⟩ ::
        cut v key dts fuel false (nextCc cc) (data.drop 184)

/-- The bytes of a packet. -/
def bytesOf (t : Spec.Ts.TsPacket) : Bytes :=
  pktBytes t.start (UInt16.ofNat t.pid) (UInt8.ofNat t.cc) t.adaptation t.payload

theorem bytesOf_mk (start : Bool) (pid : UInt16) (cc : UInt8) (ad : Option Bytes) (pl : Bytes) :
    bytesOf ⟨start, pid.toNat, cc.toNat, ad, pl⟩ = pktBytes start pid cc ad pl := by
  simp [bytesOf]

theorem pktBytes_length (start : Bool) (pid : UInt16) (cc : UInt8) (ad : Option Bytes) (pl : Bytes) :
    (pktBytes start pid cc ad pl).length = 4 + (match ad with | none => 0 | some a => a.length + 1) + pl.length := by
  cases ad <;> simp [pktBytes] <;> omega

theorem cut_length (v key : Bool) (dts : Int) (fuel : Nat) (first : Bool) (cc : UInt8) (data : Bytes)
    (hkey : (first && key) = true → data.length < 176 ∨ 184 ≤ data.length) (hc : cc.toNat < 16) :
    ∀ t ∈ cut v key dts fuel first cc data, (bytesOf t).length = 188 ∧ Spec.Ts.parsePacket (bytesOf t) = some t := by
  have hp : (pidOf v).toNat < 8192 := by cases v <;> decide
  induction fuel generalizing first cc data with
  | zero => simp [cut]
  | succ fuel ih =>
    have hn : (nextCc cc).toNat < 16 := by rw [nextCc_toNat cc hc]; omega
    have one : ∀ ad pl, (pktBytes first (pidOf v) (nextCc cc) ad pl).length = 188 →
        (bytesOf ⟨first, (pidOf v).toNat, (nextCc cc).toNat, ad, pl⟩).length = 188 ∧
        Spec.Ts.parsePacket (bytesOf ⟨first, (pidOf v).toNat, (nextCc cc).toNat, ad, pl⟩) = some ⟨first, (pidOf v).toNat, (nextCc cc).toNat, ad, pl⟩ := by
      intro ad pl h
      rw [bytesOf_mk]
      exact ⟨h, parse_pktBytes _ _ _ _ _ hp hn h⟩
    intro t ht
    simp only [cut] at ht
    split at ht
    · simp at ht
    split at ht
    · rename_i hk
      simp only [List.mem_singleton] at ht
      subst ht
      apply one
      rw [pktBytes_length]
      simp [pcrField, junk, stuffing_length]; omega
    · rename_i hs
      split at ht
      · rename_i hk
        rcases List.mem_cons.mp ht with rfl | ht
        · apply one
          rw [pktBytes_length]
          have := hkey hk
          have hs' : ¬ data.length < 176 := fun h => hs ⟨hk, h⟩
          simp [pcrField]; omega
        · exact ih false _ _ (by simp) hn t ht
      · split at ht
        · simp only [List.mem_singleton] at ht
          subst ht
          apply one
          rw [pktBytes_length]
          simp [stuffing_length]; omega
        · rcases List.mem_cons.mp ht with rfl | ht
          · apply one
            rw [pktBytes_length]
            simp; omega
          · exact ih false _ _ (by simp) hn t ht

/-- The muxer after `k` packets. -/
def bumpN (v : Bool) : Nat → Muxer → Muxer
  | 0, m => m
  | k + 1, m => bumpN v k (bumped v m)

/-- `m'` is `m` after `k` packets, up to the packet buffer. -/
def After (v : Bool) (k : Nat) (m m' : Muxer) : Prop :=
  m'.tsPacket.length = 188 ∧ m' = { bumpN v k m with tsPacket := m'.tsPacket }

theorem bumpN_pk (v : Bool) (k : Nat) (m : Muxer) (b c : Bytes) :
    ({ bumpN v k { m with tsPacket := b } with tsPacket := c } : Muxer) = { bumpN v k m with tsPacket := c } := by
  induction k generalizing m with
  | zero => rfl
  | succ k ih =>
    have : bumped v { m with tsPacket := b } = { bumped v m with tsPacket := b } := by cases v <;> rfl
    simp only [bumpN, this, ih]

theorem ccOf_pk (v : Bool) (m : Muxer) (b : Bytes) : ccOf v { m with tsPacket := b } = ccOf v m := by cases v <;> rfl
theorem ccOf_bumped (v : Bool) (m : Muxer) : ccOf v (bumped v m) = nextCc (ccOf v m) := by cases v <;> rfl

theorem muxLoop_ok (p : Packet) (v key : Bool) (dts : Int) (h : Bytes) (ht : p.type = mtype v) (fuel : Nat)
    (l : Loop) (data : Bytes) (hd : data = (h.drop l.headIndex).take l.hdrLen ++ p.media.drop l.dataIndex)
    (htot : l.total = data.length) (hdi : l.dataIndex ≤ p.media.length)
    (h2 : l.headIndex + l.hdrLen ≤ h.length) (h19 : l.hdrLen ≤ 19) (hkey : (l.first && key) = true → l.total < 176 ∨ 184 ≤ l.total)
    (hf : l.total < fuel) (e : Env) (hb : e.m.tsPacket.length = 188) :
    let cs := (cut v key dts fuel l.first (ccOf v e.m) data).map bytesOf
    ∃ m', muxLoop p key dts ⟨[0x47, (pidOf v >>> 8).toUInt8, (pidOf v).toUInt8, 0x10], h⟩ fuel l e
        = ((runChunks cs e.w).1, ⟨m', (runChunks cs e.w).2⟩)
      ∧ After v ((runChunks cs e.w).2.calls - e.w.calls) e.m m' := by
  induction fuel generalizing l data e with
  | zero => omega
  | succ fuel ih =>
    intro cs
    have hlen : data.length = l.hdrLen + (p.media.length - l.dataIndex) := by
      rw [hd, List.length_append, List.length_take, List.length_drop, List.length_drop]; omega
    unfold muxLoop
    by_cases hz : l.total > 0
    · rw [if_pos hz]
      have hne : data ≠ [] := by
        intro h0; rw [h0] at htot; simp at htot; omega
      -- a full iteration
      have key_step : ∀ (ad : Option Bytes) (jk : Bytes) (n : Nat), Layout l.first key dts l.total ad jk n → l.hdrLen ≤ n → n ≤ l.total →
          0 < n →
          cut v key dts (fuel + 1) l.first (ccOf v e.m) data = ⟨l.first, (pidOf v).toNat, (nextCc (ccOf v e.m)).toNat, ad, jk ++ data.take n⟩ ::
            cut v key dts fuel false (nextCc (ccOf v e.m)) (data.drop n) →
          ∃ m', (muxBody p key dts ⟨[0x47, (pidOf v >>> 8).toUInt8, (pidOf v).toUInt8, 0x10], h⟩ l >>=
                fun l => muxLoop p key dts ⟨[0x47, (pidOf v >>> 8).toUInt8, (pidOf v).toUInt8, 0x10], h⟩ fuel l) e
              = ((runChunks cs e.w).1, ⟨m', (runChunks cs e.w).2⟩)
            ∧ After v ((runChunks cs e.w).2.calls - e.w.calls) e.m m' := by
        intro ad jk n hlay hn1 hn2 hn0 hcut
        have hpay : (h.drop l.headIndex).take l.hdrLen ++ (p.media.drop l.dataIndex).take (n - l.hdrLen) = data.take n := by
          have hl : ((h.drop l.headIndex).take l.hdrLen).length = l.hdrLen := by
            rw [List.length_take, List.length_drop]; omega
          rw [hd, List.take_append, hl, List.take_of_length_le (i := n) (by omega)]
        obtain ⟨hP, hbody⟩ := muxBody_ok p v key dts h l e ad jk n ht hb hlay hn1 h2 (by omega) _ rfl
        rw [hpay] at hP hbody
        generalize hPd : pktBytes l.first (pidOf v) (nextCc (ccOf v e.m)) ad (jk ++ data.take n) = P at hP hbody
        have hcs : cs = P :: (cut v key dts fuel false (nextCc (ccOf v e.m)) (data.drop n)).map bytesOf := by
          show List.map _ _ = _
          rw [hcut, List.map_cons, bytesOf_mk, hPd]
        rw [GoM.bind_apply, hbody, hcs]
        simp only [runChunks, GoM.bind_apply]
        cases hw : Sink.write P e.w with
        | mk r w1 =>
          have hcalls : w1.calls = e.w.calls + 1 := by
            have := congrArg (fun x => x.2.calls) hw
            simp only [Sink.write] at this
            cases hpl : e.w.plan e.w.calls <;> simp [hpl] at this <;> omega
          cases r with
          | ok a =>
            simp only
            obtain ⟨m', q1, q2⟩ := ih
              { total := l.total - l.hdrLen - (n - l.hdrLen), hdrLen := 0, headIndex := l.headIndex + l.hdrLen,
                dataIndex := l.dataIndex + (n - l.hdrLen), first := false } (data.drop n)
              (by
                simp only [List.take_zero, List.nil_append]
                have hl : ((h.drop l.headIndex).take l.hdrLen).length = l.hdrLen := by
                  rw [List.length_take, List.length_drop]; omega
                rw [hd, List.drop_append, hl, List.drop_of_length_le (by omega), List.nil_append, List.drop_drop])
              (by simp only [List.length_drop]; omega) (by simp only; omega) (by simp only; omega) (by simp only; omega)
              (by simp) (by simp only; omega)
              ⟨{ bumped v e.m with tsPacket := P }, w1⟩ hP
            simp only [ccOf_pk, ccOf_bumped] at q1 q2
            refine ⟨m', q1, ?_⟩
            · obtain ⟨q2a, q2b⟩ := q2
              refine ⟨q2a, ?_⟩
              generalize hrc : runChunks ((cut v key dts fuel false (nextCc (ccOf v e.m)) (data.drop n)).map bytesOf) w1 = rr at q2b ⊢
              have hle : w1.calls ≤ rr.2.calls := by
                rw [← hrc]; exact runChunks_calls_le _ _
              have : rr.2.calls - e.w.calls = (rr.2.calls - w1.calls) + 1 := by omega
              rw [this]
              rw [bumpN_pk] at q2b
              exact q2b
          | err x =>
            refine ⟨_, rfl, ⟨hP, ?_⟩⟩
            simp only [hcalls, Nat.add_sub_cancel_left]; rfl
          | panic =>
            exfalso
            have := congrArg (fun x => x.1) hw
            simp only [Sink.write] at this
            cases hpl : e.w.plan e.w.calls <;> simp [hpl] at this
          | diverge =>
            exfalso
            have := congrArg (fun x => x.1) hw
            simp only [Sink.write] at this
            cases hpl : e.w.plan e.w.calls <;> simp [hpl] at this
      by_cases hk : (l.first && key) = true
      · by_cases h176 : l.total < 176
        · refine key_step _ _ l.total (.short hk h176) (by omega) (by omega) (by omega) ?_
          simp only [cut]
          rw [if_neg hne, if_pos ⟨hk, by omega⟩, htot, List.take_length, List.drop_length]
          cases fuel with
          | zero => rfl
          | succ => simp [cut]
        · have := hkey hk
          refine key_step (some (pcrField dts)) _ 176 (.pcr hk (by omega)) (by omega) (by omega) (by omega) ?_
          simp only [cut]
          rw [if_neg hne, if_neg (fun h => h176 (by omega)), if_pos hk]
          rfl
      · have hk' : (l.first && key) = false := by simpa using hk
        by_cases h184 : l.total < 184
        · refine key_step _ _ l.total (.stuff hk' h184) (by omega) (by omega) (by omega) ?_
          simp only [cut]
          rw [if_neg hne, if_neg (fun h => hk h.1), if_neg hk, if_pos (by omega), htot, List.take_length, List.drop_length]
          cases fuel with
          | zero => rfl
          | succ => simp [cut]
        · refine key_step none _ 184 (.full hk' (by omega)) (by omega) (by omega) (by omega) ?_
          simp only [cut]
          rw [if_neg hne, if_neg (fun h => hk h.1), if_neg hk, if_neg (by omega)]
          rfl
    · rw [if_neg hz]
      have h0 : data = [] := List.length_eq_zero_iff.mp (by omega)
      have hcs : cs = [] := by
        show List.map _ _ = []
        rw [h0]; simp [cut]
      rw [hcs]
      refine ⟨e.m, rfl, ⟨hb, ?_⟩⟩
      simp [runChunks, bumpN]

end Verif.Ts
