import Verif.Lemmas.TsOut
import Verif.Spec.TsHistory
/-! # Lemmas about the tables and the states of a muxer -/
namespace Verif.Ts

/-! ## Sections -/

theorem fillFF_ok (n : Nat) (pre rest : Bytes) (i : Nat) (hi : i = pre.length) (hn : n = rest.length) :
    fillFF i n (pre ++ rest) = .ok (pre ++ List.replicate n 0xff) := by
  subst hi
  induction n generalizing pre rest with
  | zero =>
    have : rest = [] := List.length_eq_zero_iff.mp hn.symm
    simp [fillFF, this]
  | succ n ih =>
    obtain ⟨x, rest, rfl⟩ : ∃ x r, rest = x :: r := by
      cases rest with
      | nil => simp at hn
      | cons x r => exact ⟨x, r, rfl⟩
    unfold fillFF
    rw [goSet_at pre x _ rest _ rfl]
    simp only [Res.bind_ok]
    have := ih (pre ++ [0xff]) rest (by simpa using hn)
    simp only [List.append_assoc, List.length_append, List.length_singleton, List.singleton_append] at this
    rw [this, List.replicate_succ]

/-- Append the CRC and fill the packet. -/
theorem finish_ok (pre rest : Bytes) (i : Nat) (crc : UInt32) (hi : i = pre.length) (h : pre.length + rest.length = 188) (h4 : i ≤ 184) :
    (putCrc (pre ++ rest) i crc >>= fun b => fillFF (i + 4) (tsPacketLen - (i + 4)) b)
      = .ok (pre ++ be32 crc ++ List.replicate (184 - i) 0xff) := by
  subst hi
  obtain ⟨a, b, c, d, rest, rfl⟩ : ∃ a b c d r, rest = a :: b :: c :: d :: r := by
    rcases rest with _ | ⟨a, _ | ⟨b, _ | ⟨c, _ | ⟨d, r⟩⟩⟩⟩ <;>
      first | (simp at h; omega) | exact ⟨_, _, _, _, _, rfl⟩
  unfold putCrc
  rw [goSet_at pre a _ _ _ rfl]
  simp only [Res.bind_ok]
  rw [show ∀ x : UInt8, pre ++ x :: b :: c :: d :: rest = (pre ++ [x]) ++ b :: c :: d :: rest from fun x => by simp,
    goSet_at (pre ++ [_]) b _ _ _ (by simp)]
  simp only [Res.bind_ok]
  rw [show ∀ x y : UInt8, (pre ++ [x]) ++ y :: c :: d :: rest = (pre ++ [x, y]) ++ c :: d :: rest from fun x y => by simp,
    goSet_at (pre ++ [_, _]) c _ _ _ (by simp)]
  simp only [Res.bind_ok]
  rw [show ∀ x y z : UInt8, (pre ++ [x, y]) ++ z :: d :: rest = (pre ++ [x, y, z]) ++ d :: rest from fun x y z => by simp,
    goSet_at (pre ++ [_, _, _]) d _ _ _ (by simp)]
  simp only [Res.bind_ok]
  rw [show ∀ x y z u : UInt8, (pre ++ [x, y, z]) ++ u :: rest = (pre ++ [x, y, z, u]) ++ rest from fun x y z u => by simp,
    fillFF_ok _ _ rest _ (by simp) (by simp at h; unfold tsPacketLen; omega)]
  unfold tsPacketLen be32
  have : 188 - (pre.length + 4) = 184 - pre.length := by omega
  simp [this]

theorem generateCrc32_eq (s : Bytes) : generateCrc32 s = .ok ⟨Spec.Crc.crc s⟩ := crcLoop_eq s _

theorem crc_be32 (s : Bytes) : Spec.Crc.crc (s ++ be32 ⟨Spec.Crc.crc s⟩) = 0 := by
  have := bytesIn_self ⟨Spec.Crc.crc s⟩
  have e : Spec.Crc.crc (s ++ be32 ⟨Spec.Crc.crc s⟩) = bytesIn (Spec.Crc.crc s) (be32 ⟨Spec.Crc.crc s⟩) := by
    unfold Spec.Crc.crc bytesIn
    simp [List.foldl_append]
  rw [e]
  exact this

/-- A section is read back. -/
theorem parse_section (tid s1 s2 e1 e0 v sn last : UInt8) (body : Bytes) (k : Nat)
    (hn : s1.toNat % 16 * 256 + s2.toNat = body.length + 9) (h1 : s1.toNat / 128 = 1) (hv : v.toNat % 2 = 1)
    (hs : sn.toNat = 0) (hl : last.toNat = 0) :
    let sec := tid :: s1 :: s2 :: e1 :: e0 :: v :: sn :: last :: body
    Spec.Ts.parseSection (0 :: sec ++ be32 ⟨Spec.Crc.crc sec⟩ ++ List.replicate k 0xff)
      = some ⟨tid.toNat, e1.toNat * 256 + e0.toNat, body⟩ := by
  intro sec
  have hb : (be32 ⟨Spec.Crc.crc sec⟩).length = 4 := rfl
  have hsec : sec = tid :: s1 :: s2 :: e1 :: e0 :: v :: sn :: last :: body := rfl
  have hcrc := crc_be32 sec
  generalize be32 ⟨Spec.Crc.crc sec⟩ = c at *
  rw [hsec] at hcrc ⊢
  clear hsec sec
  have hcrc' : Spec.Crc.crc (tid :: s1 :: s2 :: e1 :: e0 :: v :: sn :: last :: (body ++ c)) = 0 := hcrc
  unfold Spec.Ts.parseSection
  simp only [List.cons_append]
  rw [hn, if_pos]
  · have ht : (e1 :: e0 :: v :: sn :: last :: (body ++ c ++ List.replicate k 0xff)).take (body.length + 9) = e1 :: e0 :: v :: sn :: last :: (body ++ c) := by
      have : body.length + 9 = (body ++ c).length + 5 := by simp [hb]
      rw [this]
      simp only [List.take_succ_cons, List.take_left]
    rw [ht, if_pos hcrc', if_pos ⟨hv, hs, hl⟩]
    simp
  · refine ⟨rfl, h1, by simp [hb], ?_, by omega⟩
    have : body.length + 9 = (body ++ c).length + 5 := by simp [hb]
    rw [this]
    simp only [List.drop_succ_cons, List.drop_left]
    simp

/-! ## PAT -/

/-- The counter of the next table packet, and what is stored. -/
def tabCc (c : UInt8) : UInt8 := if c > 0xf then 0 else c

theorem tabCc_lt (c : UInt8) : (tabCc c).toNat < 16 := by
  unfold tabCc
  split
  · decide
  · rename_i h
    have : ¬ (0xf : UInt8).toNat < c.toNat := fun h' => h (UInt8.lt_iff_toNat_lt.mpr h')
    simp at this; omega

theorem and0f (c : UInt8) (h : c.toNat < 16) : c &&& 0x0f = c := by
  apply UInt8.toNat_inj.mp
  rw [UInt8.toNat_and]
  exact (Nat.and_two_pow_sub_one_eq_mod _ 4).trans (Nat.mod_eq_of_lt h)

/-- A table packet: five bytes of header, the section, its CRC, filling. -/
def tabPacket (b1 b2 cc : UInt8) (sec : Bytes) : Bytes :=
  [0x47, b1, b2, 0x10 ||| cc, 0] ++ sec ++ be32 ⟨Spec.Crc.crc sec⟩ ++ List.replicate (179 - sec.length) 0xff

theorem tabPacket_length (b1 b2 cc : UInt8) (sec : Bytes) (h : sec.length ≤ 179) : (tabPacket b1 b2 cc sec).length = 188 := by
  simp [tabPacket, be32]; omega

theorem parse_tabPacket (b1 b2 cc : UInt8) (sec : Bytes) (h : sec.length ≤ 179) (hc : cc.toNat < 16) (h1 : b1.toNat / 64 = 1) :
    Spec.Ts.parsePacket (tabPacket b1 b2 cc sec) = some ⟨true, b1.toNat % 32 * 256 + b2.toNat, cc.toNat, none,
      0 :: sec ++ be32 ⟨Spec.Crc.crc sec⟩ ++ List.replicate (179 - sec.length) 0xff⟩ := by
  have hl := tabPacket_length b1 b2 cc sec h
  have h3 := or10 cc hc
  unfold tabPacket at hl ⊢
  simp only [List.cons_append, List.nil_append] at hl ⊢
  unfold Spec.Ts.parsePacket
  simp only
  rw [if_pos ⟨by decide, hl, by omega, by omega⟩, if_pos (by omega), h3]
  have : decide (b1.toNat / 64 % 2 = 1) = true := by simp; omega
  rw [this]
  simp; omega

/-- Write header and section into a buffer, then CRC and filling. -/
theorem table_ok' (old h sec : Bytes) (i : Nat) (hi : i = 5 + sec.length) (ho : old.length = 188) (hh : h.length = 5) (hs : sec.length ≤ 179) (crc : UInt32) :
    (do
      let b ← goCopyAt old 0 h
      let b ← goCopyAt b 5 sec
      let b ← putCrc b i crc
      fillFF (i + 4) (tsPacketLen - (i + 4)) b) = Res.ok (h ++ sec ++ be32 crc ++ List.replicate (179 - sec.length) 0xff) := by
  have e1 := goCopyAt_at [] old h 0 rfl (by omega)
  simp only [List.nil_append] at e1
  rw [e1]
  simp only [Res.bind_ok]
  rw [goCopyAt_at h (old.drop h.length) sec 5 hh.symm (by simp; omega)]
  simp only [Res.bind_ok]
  rw [← List.append_assoc]
  have := finish_ok (h ++ sec) ((old.drop h.length).drop sec.length) i crc (by simp; omega) (by simp; omega) (by omega)
  rw [this]
  congr 3
  omega

theorem pat_ok (m : Muxer) (hb : m.pat.length = 188) :
    pat m = (.ok (tabPacket 0x40 0x00 (tabCc m.patCc) patHeader),
      { m with patCc := tabCc m.patCc + 1, pat := tabPacket 0x40 0x00 (tabCc m.patCc) patHeader }) := by
  have hc := tabCc_lt m.patCc
  have h1 : orAt patTsHeader 3 (tabCc m.patCc &&& 0x0f) = .ok [0x47, 0x40, 0x00, 0x10 ||| tabCc m.patCc, 0x00] := by
    rw [and0f _ hc]
    exact orAt_ok [0x47, 0x40, 0x00] 0x10 [0x00] _ 3 rfl
  have h2 := table_ok' m.pat [0x47, 0x40, 0x00, 0x10 ||| tabCc m.patCc, 0x00] patHeader 17 rfl hb rfl (by decide) ⟨Spec.Crc.crc patHeader⟩
  unfold pat
  simp only [GoM.bind_apply, GoM.get_apply, GoM.lift_apply, GoM.set_apply, generateCrc32_eq, Res.bind_ok, GoM.modify_apply]
  rw [show (if m.patCc > 0xf then 0 else m.patCc) = tabCc m.patCc from rfl, h1]
  simp only
  rw [show patTsHeader.length + patHeader.length = 17 from rfl, show patTsHeader.length = 5 from rfl, h2]
  rfl

/-! ## PMT -/

/-- The stream entries of a PMT. -/
def progInfo (mt : List Int) : Bytes := mt.flatMap fun v => if v = PktVideo then progAvc else if v = PktAudio then progAac else []

/-- The low byte of the PCR PID after the list. -/
def pcrLow (mt : List Int) (b : UInt8) : UInt8 :=
  mt.foldl (fun b v => if v = PktVideo then 0 else if v = PktAudio then 1 else b) b

theorem pmtPrograms_ok (mt : List Int) (b : UInt8) (info : Bytes) :
    pmtPrograms mt [0x02, 0xb0, 0xff, 0x00, 0x01, 0xc1, 0x00, 0x00, 0xe1, b, 0xf0, 0x00] info =
      .ok ([0x02, 0xb0, 0xff, 0x00, 0x01, 0xc1, 0x00, 0x00, 0xe1, pcrLow mt b, 0xf0, 0x00], info ++ progInfo mt) := by
  induction mt generalizing b info with
  | nil => simp [pmtPrograms, pcrLow, progInfo]
  | cons v mt ih =>
    have hs (x : UInt8) : goSet [0x02, 0xb0, 0xff, 0x00, 0x01, 0xc1, 0x00, 0x00, 0xe1, b, 0xf0, 0x00] 9 x
        = .ok [0x02, 0xb0, 0xff, 0x00, 0x01, 0xc1, 0x00, 0x00, 0xe1, x, 0xf0, 0x00] :=
      goSet_at [0x02, 0xb0, 0xff, 0x00, 0x01, 0xc1, 0x00, 0x00, 0xe1] b x [0xf0, 0x00] 9 rfl
    unfold pmtPrograms
    by_cases h0 : v = PktVideo
    · rw [if_pos h0, hs]
      simp only [Res.bind_ok, ih]
      simp [progInfo, pcrLow, h0]
    · rw [if_neg h0]
      by_cases h1 : v = PktAudio
      · rw [if_pos h1, hs]
        simp only [Res.bind_ok, ih]
        simp [progInfo, pcrLow, h1, PktAudio, PktVideo]
      · rw [if_neg h1, ih]
        simp [progInfo, pcrLow, h0, h1]

/-- The PMT section without its CRC. -/
def pmtSec (mt : List Int) : Bytes :=
  [0x02, 0xb0, UInt8.ofNat ((progInfo mt).length + 13), 0x00, 0x01, 0xc1, 0x00, 0x00, 0xe1, pcrLow mt 0, 0xf0, 0x00] ++ progInfo mt

theorem pmt_ok (mt : List Int) (m : Muxer) (hb : m.pmt.length = 188) (hs : (pmtSec mt).length ≤ 179) :
    pmt mt m = (.ok (tabPacket 0x50 0x01 (tabCc m.pmtCc) (pmtSec mt)),
      { m with pmtCc := tabCc m.pmtCc + 1, pmt := tabPacket 0x50 0x01 (tabCc m.pmtCc) (pmtSec mt) }) := by
  have hc := tabCc_lt m.pmtCc
  have h1 : orAt pmtTsHeader 3 (tabCc m.pmtCc &&& 0x0f) = .ok [0x47, 0x50, 0x01, 0x10 ||| tabCc m.pmtCc, 0x00] := by
    rw [and0f _ hc]
    exact orAt_ok [0x47, 0x50, 0x01] 0x10 [0x00] _ 3 rfl
  have hp := pmtPrograms_ok mt 0 []
  have hset : goSet [0x02, 0xb0, 0xff, 0x00, 0x01, 0xc1, 0x00, 0x00, 0xe1, pcrLow mt 0, 0xf0, 0x00] 2 (UInt8.ofNat ((progInfo mt).length + 9 + 4))
      = .ok [0x02, 0xb0, UInt8.ofNat ((progInfo mt).length + 13), 0x00, 0x01, 0xc1, 0x00, 0x00, 0xe1, pcrLow mt 0, 0xf0, 0x00] :=
    goSet_at [0x02, 0xb0] _ _ _ 2 rfl
  simp only [List.nil_append] at hp
  unfold pmt
  simp only [GoM.bind_apply, GoM.get_apply, GoM.lift_apply]
  rw [show pmtHeader = [0x02, 0xb0, 0xff, 0x00, 0x01, 0xc1, 0x00, 0x00, 0xe1, 0, 0xf0, 0x00] from rfl, hp]
  simp only [hset]
  rw [show (if m.pmtCc > 0xf then 0 else m.pmtCc) = tabCc m.pmtCc from rfl, h1]
  simp only [GoM.set_apply]
  generalize hh : [0x02, 0xb0, UInt8.ofNat ((progInfo mt).length + 13), 0x00, 0x01, 0xc1, 0x00, 0x00, 0xe1, pcrLow mt 0, 0xf0, 0x00] = ph
  have hsec : pmtSec mt = ph ++ progInfo mt := by rw [← hh]; rfl
  have hphl : ph.length = 12 := by rw [← hh]; rfl
  have hlen : (pmtSec mt).length = 12 + (progInfo mt).length := by rw [hsec]; simp [hphl]
  generalize hth : [0x47, 0x50, 0x01, 0x10 ||| tabCc m.pmtCc, 0x00] = th
  have hthl : th.length = 5 := by rw [← hth]; rfl
  have e1 := goCopyAt_at [] m.pmt th 0 rfl (by omega)
  simp only [List.nil_append] at e1
  have e2 := goCopyAt_at th (m.pmt.drop th.length) ph 5 hthl.symm (by simp; omega)
  have e3 := goCopyAt_at (th ++ ph) ((m.pmt.drop th.length).drop ph.length) (progInfo mt) 17 (by simp [hthl, hphl]) (by simp; omega)
  rw [List.append_assoc] at e3
  have e4 : goSlice (th ++ ph ++ (progInfo mt ++ ((m.pmt.drop th.length).drop ph.length).drop (progInfo mt).length)) (5 : Nat) (17 + (progInfo mt).length : Nat)
      = .ok (pmtSec mt) := by
    rw [goSlice_ok _ _ _ 5 (17 + (progInfo mt).length) rfl rfl (by omega) (by simp; omega)]
    rw [← List.append_assoc, List.take_left' (by simp; omega), List.append_assoc, List.drop_left' hthl, hsec]
  have e5 := finish_ok (th ++ ph ++ progInfo mt) (((m.pmt.drop th.length).drop ph.length).drop (progInfo mt).length) (17 + (progInfo mt).length) ⟨Spec.Crc.crc (pmtSec mt)⟩
    (by simp; omega) (by simp; omega) (by omega)
  rw [List.append_assoc (th ++ ph)] at e5
  rw [show pmtTsHeader.length = 5 from rfl, e1]
  simp only [Res.bind_ok]
  rw [e2]
  simp only [Res.bind_ok]
  rw [show 5 + List.length [(0x02 : UInt8), 0xb0, 0xff, 0x00, 0x01, 0xc1, 0x00, 0x00, 0xe1, 0, 0xf0, 0x00] = 17 from rfl, e3]
  simp only [Res.bind_ok]
  rw [e4]
  simp only [Res.bind_ok, generateCrc32_eq]
  rw [e5]
  have hfin : th ++ ph ++ progInfo mt ++ be32 ⟨Spec.Crc.crc (pmtSec mt)⟩ ++ List.replicate (184 - (17 + (progInfo mt).length)) 0xff
      = tabPacket 0x50 0x01 (tabCc m.pmtCc) (pmtSec mt) := by
    unfold tabPacket
    rw [hth, hsec, List.append_assoc th, ← hsec, hlen]
    congr 2
    omega
  simp only [hfin, GoM.modify_apply, GoM.pure_apply]

/-! ## SDT -/

/-- The SDT section without its CRC. -/
def sdtSec (desc : Bytes) : Bytes :=
  [0x42, 0xF0, UInt8.ofNat (17 + desc.length), 0x00, 0x01, 0xC1, 0x00, 0x00, 0xFF, 0x01, 0xFF, 0x00, 0x01, 0xFC, 0x80,
    UInt8.ofNat desc.length] ++ desc

/-- The SDT header for a descriptor length. -/
theorem sdtHead_ok (n : Nat) :
    ∃ a b : UInt8, (do
      let h ← orAt sdtHeader 1 (UInt8.ofNat ((17 + n) / 256) &&& 0x0F)
      let h ← goSet h 2 (UInt8.ofNat (17 + n))
      let h ← orAt h 14 (UInt8.ofNat ((17 + n - 17) / 256) &&& 0x0F)
      goSet h 15 (UInt8.ofNat (17 + n - 17))) =
      Res.ok [0x42, a, UInt8.ofNat (17 + n), 0x00, 0x01, 0xC1, 0x00, 0x00, 0xFF, 0x01, 0xFF, 0x00, 0x01, 0xFC, b, UInt8.ofNat n]
      ∧ (n ≤ 163 → a = 0xf0 ∧ b = 0x80) := by
  refine ⟨0xf0 ||| (UInt8.ofNat ((17 + n) / 256) &&& 0x0F), 0x80 ||| (UInt8.ofNat (n / 256) &&& 0x0F), ?_, ?_⟩
  · rw [Nat.add_sub_cancel_left]
    simp [orAt, sdtHeader, goIndex, goSet]
  · intro h
    have h1 : (17 + n) / 256 = 0 := by omega
    have h2 : n / 256 = 0 := by omega
    rw [h1, h2]; decide

theorem sdtBytes_ok (desc old : Bytes) (ho : old.length = 188) (hd : desc.length ≤ 163) :
    sdtBytes desc old = .ok (tabPacket 0x40 0x11 0 (sdtSec desc)) := by
  obtain ⟨a, b, h1, h2⟩ := sdtHead_ok desc.length
  obtain ⟨rfl, rfl⟩ := h2 hd
  unfold sdtBytes
  have k : ∀ (f : Bytes → Res Bytes), (do
      let h ← orAt sdtHeader 1 (UInt8.ofNat ((17 + desc.length) / 256) &&& 0x0F)
      let h ← goSet h 2 (UInt8.ofNat (17 + desc.length))
      let h ← orAt h 14 (UInt8.ofNat ((17 + desc.length - 17) / 256) &&& 0x0F)
      let h ← goSet h 15 (UInt8.ofNat (17 + desc.length - 17))
      f h) = f [0x42, 0xf0, UInt8.ofNat (17 + desc.length), 0x00, 0x01, 0xC1, 0x00, 0x00, 0xFF, 0x01, 0xFF, 0x00, 0x01, 0xFC, 0x80, UInt8.ofNat desc.length] := by
    intro f
    have := congrArg (· >>= f) h1
    simp only [Res.bind_ok] at this
    rw [← this]
    cases orAt sdtHeader 1 (UInt8.ofNat ((17 + desc.length) / 256) &&& 0x0F) with
    | ok h =>
      simp only [Res.bind_ok]
      cases goSet h 2 (UInt8.ofNat (17 + desc.length)) with
      | ok h =>
        simp only [Res.bind_ok]
        cases orAt h 14 (UInt8.ofNat ((17 + desc.length - 17) / 256) &&& 0x0F) <;> rfl
      | err _ => rfl
      | panic => rfl
      | diverge => rfl
    | err _ => rfl
    | panic => rfl
    | diverge => rfl
  have e1 := goCopyAt_at [] old sdtTsHeader 0 rfl (by rw [show sdtTsHeader.length = 5 from rfl]; omega)
  simp only [List.nil_append] at e1
  rw [e1]
  simp only [Res.bind_ok]
  rw [k]
  generalize hh : [(0x42 : UInt8), 0xf0, UInt8.ofNat (17 + desc.length), 0x00, 0x01, 0xC1, 0x00, 0x00, 0xFF, 0x01, 0xFF, 0x00, 0x01, 0xFC, 0x80, UInt8.ofNat desc.length] = ph
  have hsec : sdtSec desc = ph ++ desc := by rw [← hh]; rfl
  have hphl : ph.length = 16 := by rw [← hh]; rfl
  have hlen : (sdtSec desc).length = 16 + desc.length := by rw [hsec]; simp [hphl]
  have hthl : sdtTsHeader.length = 5 := rfl
  rw [show sdtHeader.length = 16 from rfl]
  have e2 := goCopyAt_at sdtTsHeader (old.drop sdtTsHeader.length) ph 5 rfl (by simp; omega)
  have e3 := goCopyAt_at (sdtTsHeader ++ ph) ((old.drop sdtTsHeader.length).drop ph.length) desc 21 (by simp [hthl, hphl]) (by simp; omega)
  rw [List.append_assoc] at e3
  have e4 : goSlice (sdtTsHeader ++ ph ++ (desc ++ ((old.drop sdtTsHeader.length).drop ph.length).drop desc.length)) (5 : Nat) (21 + desc.length : Nat)
      = .ok (sdtSec desc) := by
    rw [goSlice_ok _ _ _ 5 (21 + desc.length) rfl rfl (by omega) (by simp; omega)]
    rw [← List.append_assoc, List.take_left' (by simp; omega), List.append_assoc, List.drop_left' hthl, hsec]
  have e5 := finish_ok (sdtTsHeader ++ ph ++ desc) (((old.drop sdtTsHeader.length).drop ph.length).drop desc.length) (21 + desc.length) ⟨Spec.Crc.crc (sdtSec desc)⟩
    (by simp; omega) (by simp; omega) (by omega)
  rw [List.append_assoc (sdtTsHeader ++ ph)] at e5
  rw [hthl] at e2 e3 e4 e5 ⊢
  rw [e2]
  simp only [Res.bind_ok]
  rw [show 5 + 16 = 21 from rfl, e3]
  simp only [Res.bind_ok]
  rw [e4]
  simp only [Res.bind_ok, generateCrc32_eq]
  rw [e5]
  congr 1
  unfold tabPacket
  rw [hsec, ← List.append_assoc, ← hsec, hlen, show [(0x47 : UInt8), 0x40, 0x11, 0x10 ||| 0, 0] = sdtTsHeader from by decide]
  congr 2
  omega

theorem goCopyAt_length {b s c : Bytes} {i : Nat} (h : goCopyAt b i s = .ok c) : c.length = b.length := by
  unfold goCopyAt at h
  split at h
  · simp only [Res.ok.injEq] at h
    rw [← h]
    simp only [List.length_append, List.length_take, List.length_drop]
    omega
  · simp at h

theorem goSet_length {α} {b c : List α} {i : Int} {x : α} (h : goSet b i x = .ok c) : c.length = b.length := by
  unfold goSet at h
  split at h
  · simp at h
  · split at h
    · simp only [Res.ok.injEq] at h; rw [← h]; simp
    · simp at h

theorem res_bind_ok {α β : Type} {x : Res α} {f : α → Res β} {b : β} (h : (x >>= f) = .ok b) : ∃ a, x = .ok a ∧ f a = .ok b := by
  cases x with
  | ok a => exact ⟨a, rfl, h⟩
  | err e => simp at h
  | panic => simp at h
  | diverge => simp at h

theorem sdtBytes_panic (desc old : Bytes) (ho : old.length = 188) (hd : 163 < desc.length) : sdtBytes desc old = .panic := by
  obtain ⟨a, b, h1, -⟩ := sdtHead_ok desc.length
  have k : ∀ (f : Bytes → Res Bytes), (do
      let h ← orAt sdtHeader 1 (UInt8.ofNat ((17 + desc.length) / 256) &&& 0x0F)
      let h ← goSet h 2 (UInt8.ofNat (17 + desc.length))
      let h ← orAt h 14 (UInt8.ofNat ((17 + desc.length - 17) / 256) &&& 0x0F)
      let h ← goSet h 15 (UInt8.ofNat (17 + desc.length - 17))
      f h) = f [0x42, a, UInt8.ofNat (17 + desc.length), 0x00, 0x01, 0xC1, 0x00, 0x00, 0xFF, 0x01, 0xFF, 0x00, 0x01, 0xFC, b, UInt8.ofNat desc.length] := by
    intro f
    have := congrArg (· >>= f) h1
    simp only [Res.bind_ok] at this
    rw [← this]
    cases orAt sdtHeader 1 (UInt8.ofNat ((17 + desc.length) / 256) &&& 0x0F) with
    | ok h =>
      simp only [Res.bind_ok]
      cases goSet h 2 (UInt8.ofNat (17 + desc.length)) with
      | ok h =>
        simp only [Res.bind_ok]
        cases orAt h 14 (UInt8.ofNat ((17 + desc.length - 17) / 256) &&& 0x0F) <;> rfl
      | err _ => rfl
      | panic => rfl
      | diverge => rfl
    | err _ => rfl
    | panic => rfl
    | diverge => rfl
  have cpy : ∀ (b s : Bytes) (i : Nat), b.length = 188 → i ≤ 188 → ∃ c, goCopyAt b i s = .ok c ∧ c.length = 188 := by
    intro b s i hb hi
    unfold goCopyAt
    rw [if_pos (by omega)]
    refine ⟨_, rfl, ?_⟩
    simp only [List.length_append, List.length_take, List.length_drop]
    omega
  unfold sdtBytes
  obtain ⟨b1, e1, l1⟩ := cpy old sdtTsHeader 0 ho (by omega)
  rw [e1]
  simp only [Res.bind_ok]
  rw [k]
  generalize [(0x42 : UInt8), a, UInt8.ofNat (17 + desc.length), 0x00, 0x01, 0xC1, 0x00, 0x00, 0xFF, 0x01, 0xFF, 0x00, 0x01, 0xFC, b, UInt8.ofNat desc.length] = ph
  rw [show sdtHeader.length = 16 from rfl, show sdtTsHeader.length = 5 from rfl]
  obtain ⟨b2, e2, l2⟩ := cpy b1 ph 5 l1 (by omega)
  rw [e2]
  simp only [Res.bind_ok]
  obtain ⟨b3, e3, l3⟩ := cpy b2 desc (5 + 16) l2 (by omega)
  rw [e3]
  simp only [Res.bind_ok]
  by_cases hs : 5 + 16 + desc.length ≤ 188
  · rw [goSlice_ok b3 _ _ 5 (5 + 16 + desc.length) rfl rfl (by omega) (by omega)]
    simp only [Res.bind_ok, generateCrc32_eq]
    -- the CRC does not fit
    have pc : ∀ crc, putCrc b3 (5 + 16 + desc.length) crc = .panic := by
      intro crc
      unfold putCrc
      have st : ∀ (b : Bytes) (i : Nat) (x : UInt8), b.length = 188 → (i < 188 → ∃ c, goSet b (i : Nat) x = .ok c ∧ c.length = 188) ∧ (188 ≤ i → goSet b (i : Nat) x = .panic) := by
        intro b i x hb
        constructor
        · intro hi
          refine ⟨b.set i x, ?_, by simpa using hb⟩
          unfold goSet
          rw [if_neg (by omega), Int.toNat_natCast, if_pos (by omega)]
        · intro hi
          unfold goSet
          rw [if_neg (by omega), Int.toNat_natCast, if_neg (by omega)]
      by_cases h0 : 5 + 16 + desc.length < 188
      · obtain ⟨c0, q0, l0⟩ := (st b3 _ (crc >>> 24).toUInt8 l3).1 h0
        rw [q0]
        simp only [Res.bind_ok]
        by_cases h1 : 5 + 16 + desc.length + 1 < 188
        · obtain ⟨c1, q1, l1⟩ := (st c0 _ (crc >>> 16).toUInt8 l0).1 h1
          rw [q1]
          simp only [Res.bind_ok]
          by_cases h2 : 5 + 16 + desc.length + 2 < 188
          · obtain ⟨c2, q2, l2⟩ := (st c1 _ (crc >>> 8).toUInt8 l1).1 h2
            rw [q2]
            simp only [Res.bind_ok]
            exact (st c2 _ crc.toUInt8 l2).2 (by omega)
          · rw [(st c1 _ (crc >>> 8).toUInt8 l1).2 (by omega)]; rfl
        · rw [(st c0 _ (crc >>> 16).toUInt8 l0).2 (by omega)]; rfl
      · rw [(st b3 _ (crc >>> 24).toUInt8 l3).2 (by omega)]; rfl
    rw [pc]; rfl
  · have : goSlice b3 (5 : Nat) (5 + 16 + desc.length : Nat) = .panic := by
      unfold goSlice
      rw [if_neg (by omega)]
    rw [this]; rfl

/-! ## What calls preserve -/

/-- Everything but the packet buffer and the counters of the streams is kept. -/
structure Pres (m m' : Muxer) : Prop where
  patCc : m'.patCc = m.patCc
  pmtCc : m'.pmtCc = m.pmtCc
  sdt : m'.sdt = m.sdt
  pat : m'.pat = m.pat
  pmt : m'.pmt = m.pmt
  len : m'.tsPacket.length = m.tsPacket.length
  vcc : m.videoCc.toNat < 16 → m'.videoCc.toNat < 16
  acc : m.audioCc.toNat < 16 → m'.audioCc.toNat < 16

theorem Pres.refl (m : Muxer) : Pres m m := ⟨rfl, rfl, rfl, rfl, rfl, rfl, id, id⟩
theorem Pres.trans {a b c : Muxer} (h : Pres a b) (g : Pres b c) : Pres a c :=
  ⟨g.patCc.trans h.patCc, g.pmtCc.trans h.pmtCc, g.sdt.trans h.sdt, g.pat.trans h.pat, g.pmt.trans h.pmt,
    g.len.trans h.len, g.vcc ∘ h.vcc, g.acc ∘ h.acc⟩

/-- `f` keeps these parts whatever its outcome. -/
def Keeps {α} (f : GoM Env α) : Prop := ∀ e, Pres e.m (f e).2.m

namespace Keeps
variable {α β : Type}
theorem pure (a : α) : Keeps (Pure.pure a : GoM Env α) := fun e => Pres.refl e.m
theorem lift (r : Res α) : Keeps (GoM.lift r : GoM Env α) := fun e => Pres.refl e.m
theorem get : Keeps (GoM.get : GoM Env Env) := fun e => Pres.refl e.m
theorem fail (x : Err) : Keeps (GoM.fail x : GoM Env α) := fun e => Pres.refl e.m
theorem diverge : Keeps (GoM.diverge : GoM Env α) := fun e => Pres.refl e.m
theorem bind {f : GoM Env α} {g : α → GoM Env β} (hf : Keeps f) (hg : ∀ a, Keeps (g a)) : Keeps (f >>= g) := by
  intro e
  rw [GoM.bind_apply]
  have h := hf e
  rcases hx : f e with ⟨r, e'⟩
  rw [hx] at h
  cases r with
  | ok a => exact h.trans (hg a e')
  | err _ => exact h
  | panic => exact h
  | diverge => exact h
theorem ite {c : Prop} [Decidable c] {f g : GoM Env α} (hf : Keeps f) (hg : Keeps g) : Keeps (if c then f else g) := by
  split
  · exact hf
  · exact hg

theorem upd {f : Bytes → Res Bytes} (h : ∀ b c, f b = .ok c → c.length = b.length) : Keeps (updPacket f) := by
  intro e
  unfold updPacket
  simp only [GoM.bind_apply, GoM.get_apply, GoM.lift_apply]
  cases hf : f e.m.tsPacket with
  | ok c => exact ⟨rfl, rfl, rfl, rfl, rfl, h _ _ hf, id, id⟩
  | err _ => exact Pres.refl e.m
  | panic => exact Pres.refl e.m
  | diverge => exact Pres.refl e.m

theorem write (b : Bytes) : Keeps (Env.write b) := fun e => Pres.refl e.m
end Keeps

theorem orAt_length {b c : Bytes} {i : Nat} {v : UInt8} (h : orAt b i v = .ok c) : c.length = b.length := by
  obtain ⟨x, -, h⟩ := res_bind_ok h
  exact goSet_length h

theorem writePcr_length {b c : Bytes} {i : Nat} {d : Int} (h : writePcr b i d = .ok c) : c.length = b.length := by
  obtain ⟨b1, q1, h⟩ := res_bind_ok h
  obtain ⟨b2, q2, h⟩ := res_bind_ok h
  obtain ⟨b3, q3, h⟩ := res_bind_ok h
  obtain ⟨b4, q4, h⟩ := res_bind_ok h
  obtain ⟨b5, q5, h⟩ := res_bind_ok h
  rw [goSet_length h, goSet_length q5, goSet_length q4, goSet_length q3, goSet_length q2, goSet_length q1]

theorem stuffLoop_length (off last : Nat) (fuel i : Nat) (b c : Bytes) (h : stuffLoop off last fuel i b = .ok c) : c.length = b.length := by
  induction fuel generalizing i b with
  | zero => simp [stuffLoop] at h
  | succ fuel ih =>
    unfold stuffLoop at h
    split at h
    · obtain ⟨b1, q1, h⟩ := res_bind_ok h
      rw [ih _ _ h, goSet_length q1]
    · simp only [Res.ok.injEq] at h; rw [h]

theorem writeStuff_length {b c : Bytes} {i : Nat} {r : UInt8} (h : writeStuff b i r = .ok c) : c.length = b.length := by
  unfold writeStuff at h
  split at h
  · simp at h
  · obtain ⟨b1, q1, h⟩ := res_bind_ok h
    split at h
    · obtain ⟨b2, q2, h⟩ := res_bind_ok h
      rw [stuffLoop_length _ _ _ _ _ _ h, goSet_length q2, goSet_length q1]
    · simp only [Res.pure_eq, Res.ok.injEq] at h
      rw [← h, goSet_length q1]

theorem nextCc_lt (c : UInt8) (h : c.toNat < 16) : (nextCc c).toNat < 16 := by rw [nextCc_toNat c h]; omega

theorem keeps_bump (t : Int) : Keeps (bumpCc t) := by
  intro e
  unfold bumpCc
  simp only [GoM.bind_apply, GoM.get_apply]
  split
  · exact ⟨rfl, rfl, rfl, rfl, rfl, rfl, nextCc_lt _, id⟩
  · split
    · exact ⟨rfl, rfl, rfl, rfl, rfl, rfl, id, nextCc_lt _⟩
    · exact Pres.refl e.m

theorem keeps_muxBody (p : Packet) (key : Bool) (dts : Int) (pes : Pes) (l : Loop) : Keeps (muxBody p key dts pes l) := by
  unfold muxBody putStart putPcr putStuff putHeader putMedia
  refine .bind (.upd fun b c h => goCopyAt_length h) fun _ => ?_
  refine .bind (.ite (.upd fun b c h => orAt_length h) (.pure _)) fun _ => ?_
  refine .bind (keeps_bump _) fun _ => ?_
  refine .bind (.upd fun b c h => orAt_length h) fun _ => ?_
  refine .bind (.ite ?_ (.pure _)) fun _ => ?_
  · refine .bind (.upd fun b c h => orAt_length h) fun _ => ?_
    refine .bind (.upd fun b c h => goSet_length h) fun _ => ?_
    refine .bind (.upd fun b c h => goSet_length h) fun _ => ?_
    refine .bind (.upd fun b c h => ?_) fun _ => .bind .get fun _ => .bind (.lift _) fun _ => .pure _
    split at h
    · simp at h
    · exact writePcr_length h
  refine .bind (.ite ?_ (.pure _)) fun x => ?_
  · exact .bind (.upd fun b c h => orAt_length h) fun _ => .bind (.upd fun b c h => writeStuff_length h) fun _ => .pure _
  refine .bind (.ite ?_ (.pure _)) fun y => ?_
  · exact .bind (.lift _) fun _ => .bind (.upd fun b c h => goCopyAt_length h) fun _ => .pure _
  refine .bind (.ite (.ite (.fail _) ?_) (.pure _)) fun z => ?_
  · exact .bind (.lift _) fun _ => .bind (.upd fun b c h => goCopyAt_length h) fun _ => .pure _
  exact .bind .get fun _ => .bind (.write _) fun _ => .pure _

theorem keeps_muxLoop (p : Packet) (key : Bool) (dts : Int) (pes : Pes) (fuel : Nat) (l : Loop) : Keeps (muxLoop p key dts pes fuel l) := by
  induction fuel generalizing l with
  | zero => exact .diverge
  | succ fuel ih =>
    unfold muxLoop
    exact .ite (.bind (keeps_muxBody p key dts pes l) fun _ => ih _) (.pure _)

theorem keeps_mux (p : Packet) (dts pts : Int) : Keeps (mux p dts pts) := by
  unfold mux
  refine .bind (.ite (.bind (.lift _) fun _ => .pure _) (.ite (.pure _) (.fail _))) fun x => ?_
  refine .bind (.lift _) fun y => ?_
  exact .bind (.lift _) fun _ => .bind (.lift _) fun _ => keeps_muxLoop _ _ _ _ _ _

/-! ## Reachable states -/

/-- What holds of every reachable muxer. -/
structure Good (m : Muxer) (a b : Nat) : Prop where
  len : m.tsPacket.length = 188
  sdt : m.sdt.length = 188
  pat : m.pat.length = 188
  pmt : m.pmt.length = 188
  vcc : m.videoCc.toNat < 16
  acc : m.audioCc.toNat < 16
  patCc : (tabCc m.patCc).toNat = a % 16
  pmtCc : (tabCc m.pmtCc).toNat = b % 16

theorem tabCc_next (c : UInt8) (h : c.toNat < 16) : (tabCc (c + 1)).toNat = (c.toNat + 1) % 16 := by
  have tab : ∀ c : Fin 16, (tabCc (UInt8.ofNat c.val + 1)).toNat = (c.val + 1) % 16 := by decide
  have := tab ⟨c.toNat, h⟩
  simpa using this

theorem pmtSec_length (mt : List Int) : (pmtSec mt).length = 12 + (progInfo mt).length := by
  simp [pmtSec]; omega

theorem putCrc_length {b c : Bytes} {i : Nat} {x : UInt32} (h : putCrc b i x = .ok c) : c.length = b.length := by
  obtain ⟨b1, q1, h⟩ := res_bind_ok h
  obtain ⟨b2, q2, h⟩ := res_bind_ok h
  obtain ⟨b3, q3, h⟩ := res_bind_ok h
  rw [goSet_length h, goSet_length q3, goSet_length q2, goSet_length q1]

theorem fillFF_length (i n : Nat) (b c : Bytes) (h : fillFF i n b = .ok c) : c.length = b.length := by
  induction n generalizing i b with
  | zero => simp only [fillFF, Res.ok.injEq] at h; rw [h]
  | succ n ih =>
    obtain ⟨b1, q1, h⟩ := res_bind_ok h
    rw [ih _ _ h, goSet_length q1]

theorem sdtBytes_length {desc old c : Bytes} (h : sdtBytes desc old = .ok c) : c.length = old.length := by
  obtain ⟨b1, q1, h⟩ := res_bind_ok h
  obtain ⟨h1, _, h⟩ := res_bind_ok h
  obtain ⟨h2, _, h⟩ := res_bind_ok h
  obtain ⟨h3, _, h⟩ := res_bind_ok h
  obtain ⟨h4, _, h⟩ := res_bind_ok h
  obtain ⟨b2, q2, h⟩ := res_bind_ok h
  obtain ⟨b3, q3, h⟩ := res_bind_ok h
  obtain ⟨sec, _, h⟩ := res_bind_ok h
  obtain ⟨crc, _, h⟩ := res_bind_ok h
  obtain ⟨b4, q4, h⟩ := res_bind_ok h
  rw [fillFF_length _ _ _ _ h, putCrc_length q4, goCopyAt_length q3, goCopyAt_length q2, goCopyAt_length q1]

theorem sdt_eq (desc : Bytes) (m : Muxer) : sdt desc m =
    (sdtBytes desc m.sdt, match sdtBytes desc m.sdt with | .ok b => { m with sdt := b } | _ => m) := by
  unfold sdt
  simp only [GoM.bind_apply, GoM.get_apply, GoM.lift_apply]
  cases sdtBytes desc m.sdt <;> rfl

/-- A call of `PMT`, whatever its outcome. -/
theorem pmt_any (mt : List Int) (m : Muxer) (hb : m.pmt.length = 188) :
    (pmt mt m).2.pmtCc = tabCc m.pmtCc + 1 ∧ (pmt mt m).2.pmt.length = 188 ∧
      { (pmt mt m).2 with pmtCc := m.pmtCc, pmt := m.pmt } = m := by
  have hc := tabCc_lt m.pmtCc
  have h1 : orAt pmtTsHeader 3 (tabCc m.pmtCc &&& 0x0f) = .ok [0x47, 0x50, 0x01, 0x10 ||| tabCc m.pmtCc, 0x00] := by
    rw [and0f _ hc]
    exact orAt_ok [0x47, 0x50, 0x01] 0x10 [0x00] _ 3 rfl
  have hp := pmtPrograms_ok mt 0 []
  have hset : goSet [0x02, 0xb0, 0xff, 0x00, 0x01, 0xc1, 0x00, 0x00, 0xe1, pcrLow mt 0, 0xf0, 0x00] 2 (UInt8.ofNat ((progInfo mt).length + 9 + 4))
      = .ok [0x02, 0xb0, UInt8.ofNat ((progInfo mt).length + 13), 0x00, 0x01, 0xc1, 0x00, 0x00, 0xe1, pcrLow mt 0, 0xf0, 0x00] :=
    goSet_at [0x02, 0xb0] _ _ _ 2 rfl
  simp only [List.nil_append] at hp
  unfold pmt
  simp only [GoM.bind_apply, GoM.get_apply, GoM.lift_apply]
  rw [show pmtHeader = [0x02, 0xb0, 0xff, 0x00, 0x01, 0xc1, 0x00, 0x00, 0xe1, 0, 0xf0, 0x00] from rfl, hp]
  simp only [hset]
  rw [show (if m.pmtCc > 0xf then 0 else m.pmtCc) = tabCc m.pmtCc from rfl, h1]
  simp only [GoM.set_apply]
  split
  · rename_i c σ hr
    simp only [Prod.mk.injEq] at hr
    obtain ⟨hr, rfl⟩ := hr
    obtain ⟨b1, q1, hc⟩ := res_bind_ok hr
    obtain ⟨b2, q2, hc⟩ := res_bind_ok hc
    obtain ⟨b3, q3, hc⟩ := res_bind_ok hc
    obtain ⟨sec, q4, hc⟩ := res_bind_ok hc
    obtain ⟨crc, q5, hc⟩ := res_bind_ok hc
    obtain ⟨b6, q6, hc⟩ := res_bind_ok hc
    have := fillFF_length _ _ _ _ hc
    rw [putCrc_length q6, goCopyAt_length q3, goCopyAt_length q2, goCopyAt_length q1, hb] at this
    exact ⟨rfl, this, rfl⟩
  all_goals
    rename_i σ hr
    simp only [Prod.mk.injEq] at hr
    obtain ⟨_, rfl⟩ := hr
    exact ⟨rfl, hb, rfl⟩

theorem tabCc_tabCc (c : UInt8) : (tabCc (tabCc c + 1)).toNat = ((tabCc c).toNat + 1) % 16 :=
  tabCc_next _ (tabCc_lt c)

theorem mod16_succ (a n : Nat) (h : n = a % 16) : (n + 1) % 16 = (a + 1) % 16 := by omega

theorem tabPacket_len {b1 b2 cc : UInt8} {sec : Bytes} (h : sec.length ≤ 179) : (tabPacket b1 b2 cc sec).length = 188 :=
  tabPacket_length _ _ _ _ h

theorem Hist.good {m : Muxer} {a b : Nat} (h : Spec.Ts.Hist m a b) : Good m a b := by
  induction h with
  | new => exact ⟨List.length_replicate, List.length_replicate, List.length_replicate, List.length_replicate, by decide, by decide, by decide, by decide⟩
  | @mux m a b p dts pts w _ ih =>
    have k := keeps_mux p dts pts ⟨m, w⟩
    exact ⟨k.len.trans ih.len, by rw [k.sdt]; exact ih.sdt, by rw [k.pat]; exact ih.pat, by rw [k.pmt]; exact ih.pmt,
      k.vcc ih.vcc, k.acc ih.acc, by rw [k.patCc]; exact ih.patCc, by rw [k.pmtCc]; exact ih.pmtCc⟩
  | @sdt m a b desc _ ih =>
    rw [sdt_eq]
    cases hs : sdtBytes desc m.sdt with
    | ok c => exact ⟨ih.len, (sdtBytes_length hs).trans ih.sdt, ih.pat, ih.pmt, ih.vcc, ih.acc, ih.patCc, ih.pmtCc⟩
    | err _ => exact ih
    | panic => exact ih
    | diverge => exact ih
  | @pat m a b _ ih =>
    rw [pat_ok m ih.pat]
    exact ⟨ih.len, ih.sdt, tabPacket_len (by decide), ih.pmt, ih.vcc, ih.acc,
      by rw [tabCc_tabCc]; exact mod16_succ _ _ ih.patCc, ih.pmtCc⟩
  | @pmt m a b mt _ ih =>
    obtain ⟨h1, h2, h3⟩ := pmt_any mt m ih.pmt
    have f : ∀ {β} (g : Muxer → β), g { (pmt mt m).2 with pmtCc := m.pmtCc, pmt := m.pmt } = g m := fun g => congrArg g h3
    refine ⟨?_, ?_, ?_, h2, ?_, ?_, ?_, ?_⟩
    · rw [← ih.len]; exact f (·.tsPacket.length)
    · rw [← ih.sdt]; exact f (·.sdt.length)
    · rw [← ih.pat]; exact f (·.pat.length)
    · rw [show (pmt mt m).2.videoCc = m.videoCc from f (·.videoCc)]; exact ih.vcc
    · rw [show (pmt mt m).2.audioCc = m.audioCc from f (·.audioCc)]; exact ih.acc
    · rw [show (pmt mt m).2.patCc = m.patCc from f (·.patCc)]; exact ih.patCc
    · rw [h1, tabCc_tabCc]; exact mod16_succ _ _ ih.pmtCc

end Verif.Ts
