import Verif.Lemmas.TsMixer
import Verif.Props.Flv
/-!
# Properties C45, C46, C56, C85–C87: the transport stream mixer

The formats are in `Verif/Spec/Ts.lean` and `Verif/Spec/Parser.lean`, the reachable states in
`Verif/Spec/TsMixerHistory.lean`.
-/
namespace Verif.Props
open Verif Verif.Ts Verif.Spec.Ts Verif.Spec.Es

/-! ## The tables -/

/-- The PMT with its PCR PID. -/
theorem pmt_packet {m : Muxer} {a b : Nat} (hg : Good m a b) (mt : List Int) (hs : (pmtStreams mt).length ≤ 33) :
    parsePmtPacket (tabPacket 0x50 0x01 (tabCc m.pmtCc) (pmtSec mt)) = some (b % 16, 1, 0x100 + (pcrLow mt 0).toNat, pmtStreams mt) := by
  have hl := progInfo_length mt
  have hlen := pmtSec_length mt
  unfold parsePmtPacket
  rw [parse_tabPacket 0x50 0x01 (tabCc m.pmtCc) (pmtSec mt) (by omega) (tabCc_lt _) (by decide)]
  have hsec := parse_section 0x02 0xb0 (UInt8.ofNat ((progInfo mt).length + 13)) 0x00 0x01 0xc1 0x00 0x00 ([0xe1, pcrLow mt 0, 0xf0, 0x00] ++ progInfo mt)
    (179 - (pmtSec mt).length) (by rw [UInt8.toNat_ofNat']; simp; omega) rfl rfl rfl rfl
  simp only [show (0x50 : UInt8).toNat % 32 * 256 + (0x01 : UInt8).toNat = 0x1001 from rfl]
  rw [show parseSection (0 :: pmtSec mt ++ be32 ⟨Spec.Crc.crc (pmtSec mt)⟩ ++ List.replicate (179 - (pmtSec mt).length) 0xff) = _ from hsec]
  simp only [show (0x02 : UInt8).toNat = 2 from rfl]
  show (parsePmt ([0xe1, pcrLow mt 0, 0xf0, 0x00] ++ progInfo mt)).map _ = _
  have hp : parsePmt ([0xe1, pcrLow mt 0, 0xf0, 0x00] ++ progInfo mt) = (parseStreams (progInfo mt)).map fun x => ((0xe1 : UInt8).toNat % 32 * 256 + (pcrLow mt 0).toNat, x) := rfl
  rw [hp, parse_progInfo, hg.pmtCc]
  rfl

theorem pmt_short (t : Types) : (pmtStreams t.toSlice).length ≤ 33 := by
  unfold Types.toSlice
  split <;> split <;> decide

/-- The three tables, if the SDT fits. -/
theorem tables_ok {m : Muxer} {a b : Nat} (hg : Good m a b) (d : Bytes) (hd : d.length ≤ 163) (t : Types) :
    ∃ m', tables d t.toSlice m = (.ok (tabPacket 0x40 0x11 0 (sdtSec d), tabPacket 0x40 0x00 (tabCc m.patCc) patHeader,
        tabPacket 0x50 0x01 (tabCc m.pmtCc) (pmtSec t.toSlice)), m') ∧
      Good m' (a + 1) (b + 1) ∧ ∀ v, ccOf v m' = ccOf v m := by
  have hl := progInfo_length t.toSlice
  have hlen := pmtSec_length t.toSlice
  have hsh := pmt_short t
  have e1 : sdt d m = (.ok (tabPacket 0x40 0x11 0 (sdtSec d)), { m with sdt := tabPacket 0x40 0x11 0 (sdtSec d) }) := by
    rw [sdt_eq, sdtBytes_ok d m.sdt hg.sdt hd]
  have e2 := pat_ok { m with sdt := tabPacket 0x40 0x11 0 (sdtSec d) } hg.pat
  have e3 := pmt_ok t.toSlice { m with
    sdt := tabPacket 0x40 0x11 0 (sdtSec d)
    patCc := tabCc m.patCc + 1
    pat := tabPacket 0x40 0x00 (tabCc m.patCc) patHeader } hg.pmt (by omega)
  refine ⟨{ m with
      sdt := tabPacket 0x40 0x11 0 (sdtSec d)
      patCc := tabCc m.patCc + 1
      pat := tabPacket 0x40 0x00 (tabCc m.patCc) patHeader
      pmtCc := tabCc m.pmtCc + 1
      pmt := tabPacket 0x50 0x01 (tabCc m.pmtCc) (pmtSec t.toSlice) }, ?_, ?_, ?_⟩
  · unfold tables
    simp only [GoM.bind_apply, e1, e2, e3, GoM.pure_apply]
  · have hls : (sdtSec d).length = 16 + d.length := by simp [sdtSec]; omega
    refine ⟨hg.len, tabPacket_len (by omega), tabPacket_len (by decide), tabPacket_len (by omega), hg.vcc, hg.acc, ?_, ?_⟩
    · show (tabCc (tabCc m.patCc + 1)).toNat = _
      rw [tabCc_tabCc]; exact mod16_succ _ _ hg.patCc
    · show (tabCc (tabCc m.pmtCc + 1)).toNat = _
      rw [tabCc_tabCc]; exact mod16_succ _ _ hg.pmtCc
  · intro v; cases v <;> rfl

/-- `SetTsHeader` on a writer that works, if the SDT fits. -/
theorem header_ok {x : Mixer} {a b : Nat} (hg : Good x.muxer a b) (hd : x.metadata.length ≤ 163) (hw : x.ts.Reliable) :
    ∃ m', x.setTsHeader = (.ok (), { x with muxer := m', ts := { x.ts with
        out := x.ts.out ++ tabPacket 0x40 0x11 0 (sdtSec x.metadata) ++ tabPacket 0x40 0x00 (tabCc x.muxer.patCc) patHeader ++
          tabPacket 0x50 0x01 (tabCc x.muxer.pmtCc) (pmtSec x.types.toSlice)
        calls := x.ts.calls + 3 } }) ∧ Good m' (a + 1) (b + 1) ∧ ∀ v, ccOf v m' = ccOf v x.muxer := by
  obtain ⟨m', h1, h2, h3⟩ := tables_ok hg x.metadata hd x.types
  refine ⟨m', ?_, h2, h3⟩
  unfold Mixer.setTsHeader
  rw [h1]
  have hwr : ∀ (s o : Bytes) (c : Nat), Sink.write s ⟨o, c, x.ts.plan⟩ = (.ok (), ⟨o ++ s, c + 1, x.ts.plan⟩) := by
    intro s o c
    have : x.ts.plan c = none := hw c
    simp only [Sink.write, this]
  simp only [writeTables, GoM.bind_apply]
  rw [show x.ts = ⟨x.ts.out, x.ts.calls, x.ts.plan⟩ from rfl]
  simp only [hwr]

/-- `SetTsHeader` panics, if the SDT does not fit. -/
theorem header_panic {x : Mixer} {a b : Nat} (hg : Good x.muxer a b) (hd : 163 < x.metadata.length) :
    x.setTsHeader = (.panic, x) := by
  unfold Mixer.setTsHeader tables
  simp only [GoM.bind_apply]
  rw [sdt_eq, sdtBytes_panic x.metadata x.muxer.sdt hg.sdt hd]

/-! ## C45 -/

/-- The name that the metadata gives for a key. -/
def nameFor (md : List (Bytes × Amf.Val)) (key : String) : Bytes :=
  match md.find? (fun kv => kv.1 = key.toUTF8.data.toList) with
  | some (_, .str s) => s
  | _ => "undefined".toUTF8.data.toList

theorem lookup_find (md : List (Bytes × Amf.Val)) (key : Bytes) : md.lookup key = (md.find? (fun kv => kv.1 = key)).map (·.2) := by
  induction md with
  | nil => rfl
  | cons kv md ih =>
    simp only [List.lookup, List.find?]
    by_cases h : kv.1 = key
    · subst h; simp
    · have h' : (key == kv.1) = false := by simp; exact fun e => h e.symm
      simp only [h', h, decide_false, ih]

theorem nameOf_eq (md : List (Bytes × Amf.Val)) (key : Bytes) (s : String) (hk : key = s.toUTF8.data.toList) :
    nameOf md key = nameFor md s := by
  unfold nameOf nameFor
  rw [lookup_find, hk]
  cases md.find? (fun kv => kv.1 = s.toUTF8.data.toList) with
  | none => rfl
  | some kv =>
    obtain ⟨k, v⟩ := kv
    cases v <;> rfl

theorem service_length (t : UInt8) (p n : Bytes) : (service t p n).length = 5 + p.length + n.length := by
  simp [service]; omega

/-- Partial: proved for names of at most 158 bytes together (`C45_long_names_refuted` shows the other case).  The
first of the three packets is an SDT with the two names.

Full claim: the same without `hl`. -/
theorem C45_metadata_partial {x : Mixer} (h : MixReach x) (md : List (Bytes × Amf.Val)) (hw : x.ts.Reliable)
    (hl : (nameFor md "Provider").length + (nameFor md "Service").length ≤ 158) :
    ∃ y s a b d c, (x.saveMetadata md).setTsHeader = (.ok (), y) ∧ y.ts.out = x.ts.out ++ s ++ a ++ b ∧
      parseSdt s = some (1, d) ∧ parseDescriptors 1 d = some [(0x48, c)] ∧
      parseService c = some (1, nameFor md "Provider", nameFor md "Service") ∧
      (∃ cc, parsePat a = some (cc, 1, [(1, 0x1001)])) ∧ (∃ cc pcr st, parsePmtPacket b = some (cc, 1, pcr, st)) := by
  obtain ⟨hs, h⟩ := h
  have hi := MixHist.inv h
  obtain ⟨a, b, hh⟩ := hi.muxer
  have hg := Hist.good hh
  have e1 := nameOf_eq md providerKey "Provider" (by decide +kernel)
  have e2 := nameOf_eq md serviceKey "Service" (by decide +kernel)
  have hm : (x.saveMetadata md).metadata = service 1 (nameFor md "Provider") (nameFor md "Service") := by
    rw [← e1, ← e2]; rfl
  obtain ⟨c, hc1, hc2⟩ := C57_service 1 (nameFor md "Provider") (nameFor md "Service") (by omega)
  have hlen : (x.saveMetadata md).metadata.length ≤ 163 := by rw [hm, service_length]; omega
  obtain ⟨m', h1, -, -⟩ := header_ok (x := x.saveMetadata md) hg hlen hw
  obtain ⟨s, hs1, -, hs3⟩ := C44_sdt hi.muxer _ hlen
  have hs4 : s = tabPacket 0x40 0x11 0 (sdtSec (x.saveMetadata md).metadata) := by
    rw [sdt_eq, sdtBytes_ok _ x.muxer.sdt hg.sdt hlen] at hs1
    cases hs1; rfl
  obtain ⟨p, hp1, -, hp3⟩ := C42_pat hh
  have hp4 : p = tabPacket 0x40 0x00 (tabCc x.muxer.patCc) patHeader := by
    rw [pat_ok x.muxer hg.pat] at hp1
    cases hp1; rfl
  subst hs4 hp4
  exact ⟨_, _, _, _, _, _, h1, rfl, by rw [hm] at hs3 ⊢; exact hs3, hc1, hc2, ⟨_, hp3⟩, _, _, _,
    pmt_packet hg x.types.toSlice (pmt_short x.types)⟩

/-- Longer names are accepted by `SaveMetadata`, but make `SetTsHeader` panic with nothing written. -/
theorem C45_long_names_refuted {x : Mixer} (h : MixReach x) (md : List (Bytes × Amf.Val))
    (hl : 158 < (nameFor md "Provider").length + (nameFor md "Service").length) :
    (x.saveMetadata md).setTsHeader.1 = .panic ∧ (x.saveMetadata md).setTsHeader.2.ts = x.ts := by
  obtain ⟨hs, h⟩ := h
  obtain ⟨a, b, hh⟩ := (MixHist.inv h).muxer
  have e1 := nameOf_eq md providerKey "Provider" (by decide +kernel)
  have e2 := nameOf_eq md serviceKey "Service" (by decide +kernel)
  have hm : (x.saveMetadata md).metadata = service 1 (nameFor md "Provider") (nameFor md "Service") := by
    rw [← e1, ← e2]; rfl
  rw [header_panic (x := x.saveMetadata md) (Hist.good hh) (by rw [hm, service_length]; omega)]
  exact ⟨rfl, rfl⟩

example : nameFor [([83, 101, 114, 118, 105, 99, 101], .bool true), ([80, 114, 111, 118, 105, 100, 101, 114], .str [1, 2, 3])] "Provider" = [1, 2, 3] ∧
    nameFor [([83, 101, 114, 118, 105, 99, 101], .bool true), ([80, 114, 111, 118, 105, 100, 101, 114], .str [1, 2, 3])] "Service" =
      [117, 110, 100, 101, 102, 105, 110, 101, 100] := by decide +kernel

/-! ## C46 -/

/-- The bits for the announced streams. -/
def bitsOf (v a : Bool) : Types := ⟨(if v then 1 else 0) ||| (if a then 2 else 0)⟩

theorem announced_types {x : Mixer} {v a : Bool} (h : Announced x v a) : x.types = bitsOf v a := by
  induction h with
  | new w => rfl
  | @avc x v a p _ ih =>
    obtain ⟨-, -, -, -, e, -, -, -⟩ := saveHeader_parts { x with types := x.types.isVideo } p
    refine e.trans ?_
    show x.types.isVideo = _
    rw [ih]
    cases v <;> cases a <;> rfl
  | @aac x v a p _ ih =>
    obtain ⟨-, -, -, -, e, -, -, -⟩ := saveHeader_parts { x with types := x.types.isAudio } p
    refine e.trans ?_
    show x.types.isAudio = _
    rw [ih]
    cases v <;> cases a <;> rfl
  | @other x v a o _ hn ih =>
    rw [← ih]
    cases o with
    | setWriter w => rfl
    | saveMetadata md => rfl
    | mux p => exact (mux_parts x p).2.2.2.2.1
    | saveAVC p => exact absurd rfl (hn p).1
    | saveAAC p => exact absurd rfl (hn p).2
    | header => exact (header_parts x).2.2.2.2.1
    | update p a b =>
      show (x.update p a b).2.types = x.types
      unfold Mixer.update
      simp only
      split
      · rfl
      split
      · split
        · split <;> rfl
        all_goals rfl
      · rfl

/-- The streams a PMT should list. -/
def announcedStreams (v a : Bool) : List (Nat × Nat) := (if v then [(0x1b, 0x100)] else []) ++ (if a then [(0x0f, 0x101)] else [])

/-- What the PMT says: the streams whose headers were saved, and which PID has the PCR. -/
theorem C46_pmt {x : Mixer} (h : MixReach x) {v a : Bool} (ha : Announced x v a) (hw : x.ts.Reliable) (hok : x.setTsHeader.1 = .ok ()) :
    ∃ s p q cc, x.setTsHeader.2.ts.out = x.ts.out ++ s ++ p ++ q ∧
      parsePmtPacket q = some (cc, 1, if a then 0x101 else 0x100, announcedStreams v a) := by
  obtain ⟨hs, h⟩ := h
  obtain ⟨i, j, hh⟩ := (MixHist.inv h).muxer
  have hg := Hist.good hh
  have hd : x.metadata.length ≤ 163 := by
    by_cases hd : x.metadata.length ≤ 163
    · exact hd
    · rw [header_panic hg (by omega)] at hok; simp at hok
  obtain ⟨m', h1, -, -⟩ := header_ok hg hd hw
  refine ⟨_, _, _, j % 16, by rw [h1], ?_⟩
  rw [pmt_packet hg x.types.toSlice (pmt_short x.types), announced_types ha]
  cases v <;> cases a <;> rfl

/-- The packet that the codec parser makes of a packet. -/
def parsed (x : Mixer) (p : Packet) : Packet := { p with media := (Parser.parse p ⟨x.parser, Sink.mem⟩).2.w.out }

/-- What a successful `Mux` of a mixer does, if the writer works. -/
theorem mixer_mux {x : Mixer} (h : MixReach x) (p : Packet) (hw : x.ts.Reliable) (hok : (x.mux p).1 = .ok ()) :
    ∃ v key m', (Parser.parse p ⟨x.parser, Sink.mem⟩).1 = .ok () ∧ Kind (parsed x p) v key ∧ Fits v key (parsed x p) x.pts x.dts ∧
      After v (packets v key (parsed x p).media x.pts x.dts (ccOf v x.muxer)).length x.muxer m' ∧
      x.mux p = (.ok (), { x with
        parser := (Parser.parse p ⟨x.parser, Sink.mem⟩).2.p
        muxer := m'
        ts := { x.ts with
          out := x.ts.out ++ ((packets v key (parsed x p).media x.pts x.dts (ccOf v x.muxer)).map bytesOf).flatten
          calls := x.ts.calls + (packets v key (parsed x p).media x.pts x.dts (ccOf v x.muxer)).length } }, parsed x p) := by
  obtain ⟨hs, h⟩ := h
  obtain ⟨i, j, hh⟩ := (MixHist.inv h).muxer
  have hg := Hist.good hh
  have hp : (Parser.parse p ⟨x.parser, Sink.mem⟩).1 = .ok () := by
    by_cases hp : (Parser.parse p ⟨x.parser, Sink.mem⟩).1 = .ok ()
    · exact hp
    · rw [x.mux_rejected p hp] at hok; exact hok
  have e := x.mux_ok p hp (parsed x p) rfl
  rw [e] at hok
  obtain ⟨v, key, hk, hf⟩ := mux_ok_kind hg hok
  obtain ⟨m', h1, h2⟩ := mux_reliable hg hk x.pts x.dts hf x.ts hw
  refine ⟨v, key, m', hp, hk, hf, h2, ?_⟩
  rw [e, h1]

/-- What it writes is a transport stream. -/
theorem mixer_muxed {x : Mixer} (h : MixReach x) (p : Packet) (hw : x.ts.Reliable) (hok : (x.mux p).1 = .ok ()) :
    ∃ v key, Kind (parsed x p) v key ∧ Fits v key (parsed x p) x.pts x.dts ∧
      ∃ out, (x.mux p).2.1.ts.out = x.ts.out ++ out ∧
        parseStream out = some (packets v key (parsed x p).media x.pts x.dts (ccOf v x.muxer)) := by
  obtain ⟨v, key, m', -, hk, hf, -, he⟩ := mixer_mux h p hw hok
  obtain ⟨hs, h⟩ := h
  obtain ⟨i, j, hh⟩ := (MixHist.inv h).muxer
  exact ⟨v, key, hk, hf, _, by rw [he], parse_packets _ (packets_parse (Hist.good hh) hf)⟩

/-- The packets of one PES packet have one PID, and only the first one may have a PCR. -/
theorem packets_pcr {m : Muxer} (hm : Reach m) {p : Packet} {v key : Bool} (hk : Kind p v key) (dts pts : Int) (hf : Fits v key p pts dts) :
    (∀ t ∈ packets v key p.media pts dts (ccOf v m), t.pid = (if v then 0x100 else 0x101)) ∧
    (∀ t ∈ packets v key p.media pts dts (ccOf v m), pcrOf t ≠ none → t.pid = 0x100) ∧
    (key = true → ∃ t, (packets v key p.media pts dts (ccOf v m)).head? = some t ∧ pcrOf t = some ((dts % 2 ^ 33).toNat, 0)) := by
  obtain ⟨a, b, hh⟩ := hm
  have hmx := muxed (Hist.good hh) hk pts dts hf
  have hok : (Ts.mux p dts pts ⟨m, Sink.mem⟩).1 = .ok () := (hmx Sink.mem (fun _ => rfl)).choose_spec.1
  obtain ⟨t, ts, h1, h2, h3, h4⟩ := C53_pcr ⟨a, b, hh⟩ hk dts pts Sink.mem hok
  have he : packets v key p.media pts dts (ccOf v m) = t :: ts := by
    obtain ⟨o1, -, k2, k3⟩ := h1 Sink.mem (fun _ => rfl)
    obtain ⟨o2, -, l2, l3⟩ := hmx Sink.mem (fun _ => rfl)
    rw [k2] at l2
    have := List.append_cancel_left l2
    subst this
    rw [k3] at l3
    exact (Option.some.inj l3).symm
  have hpid : ∀ x ∈ packets v key p.media pts dts (ccOf v m), x.pid = (if v then 0x100 else 0x101) := by
    intro x hx
    have := cut_pid _ _ _ _ _ _ _ x hx
    cases v <;> exact this
  refine ⟨hpid, ?_, ?_⟩
  · intro x hx hp
    have hx' := hpid x hx
    rw [he] at hx
    rcases List.mem_cons.mp hx with rfl | hx
    · cases hk with
      | video vh _ _ => exact hx'
      | audio _ => exact absurd (h4 rfl) hp
    · exact absurd (h2 x hx) hp
  · intro hkey
    obtain ⟨ad, g1, g2⟩ := h3 hkey
    refine ⟨t, by rw [he]; rfl, ?_⟩
    unfold pcrOf
    rw [g1]
    simp only
    rw [g2]

/-- C46 fails for every mixer that was told to announce audio: its PMT says that the PCR is on PID 0x101, and no
successful `Mux` of any mixer ever writes a PCR on a PID other than 0x100. -/
theorem C46_pcr_pid_refuted {x : Mixer} (h : MixReach x) {v : Bool} (ha : Announced x v true) (hw : x.ts.Reliable)
    (hok : x.setTsHeader.1 = .ok ()) :
    (∃ s p q cc, x.setTsHeader.2.ts.out = x.ts.out ++ s ++ p ++ q ∧
      parsePmtPacket q = some (cc, 1, 0x101, announcedStreams v true)) ∧
    ∀ (y : Mixer) (p : Packet), MixReach y → y.ts.Reliable → (y.mux p).1 = .ok () →
      ∃ out ps, (y.mux p).2.1.ts.out = y.ts.out ++ out ∧ parseStream out = some ps ∧
        ∀ t ∈ ps, pcrOf t ≠ none → t.pid ≠ 0x101 := by
  refine ⟨C46_pmt h ha hw hok, fun y p hy hwy hoky => ?_⟩
  obtain ⟨v', key, hk, hf, out, h1, h2⟩ := mixer_muxed hy p hwy hoky
  obtain ⟨hs, hy⟩ := hy
  refine ⟨out, _, h1, h2, fun t ht hp => ?_⟩
  rw [(packets_pcr (MixHist.inv hy).muxer hk _ _ hf).2.1 t ht hp]
  decide

/-- C46 for mixers that were told to announce only video: the PMT says that the PCR is on PID 0x100, and every key
frame that is muxed begins with a packet on this PID with a PCR.  Missing: mixers that announce audio, for which the
property does not hold. -/
theorem C46_pcr_pid_partial {x : Mixer} (h : MixReach x) (ha : Announced x true false) (hw : x.ts.Reliable)
    (hok : x.setTsHeader.1 = .ok ()) :
    (∃ s p q cc, x.setTsHeader.2.ts.out = x.ts.out ++ s ++ p ++ q ∧ parsePmtPacket q = some (cc, 1, 0x100, [(0x1b, 0x100)])) ∧
    ∀ (y : Mixer) (p : Packet) (vh : VideoHdr), MixReach y → y.ts.Reliable → (y.mux p).1 = .ok () →
      p.type = 0 → p.asVideo = .ok vh → vh.isKeyFrame = true →
      ∃ out t ps, (y.mux p).2.1.ts.out = y.ts.out ++ out ∧ parseStream out = some (t :: ps) ∧
        t.pid = 0x100 ∧ pcrOf t = some (y.dts.toNat, 0) := by
  refine ⟨C46_pmt h ha hw hok, fun y p vh hy hwy hoky ht hv hkey => ?_⟩
  obtain ⟨v', key, hk, hf, out, h1, h2⟩ := mixer_muxed hy p hwy hoky
  obtain ⟨hs, hy⟩ := hy
  have hi := MixHist.inv hy
  have hk' : v' = true ∧ key = true := by
    cases hk with
    | video vh' _ hv' =>
      have : p.asVideo = .ok vh' := hv'
      rw [hv] at this
      cases this
      exact ⟨rfl, hkey⟩
    | audio ht' => exact absurd (show p.type = 1 from ht') (by rw [ht]; decide)
  obtain ⟨rfl, rfl⟩ := hk'
  obtain ⟨g1, -, g3⟩ := packets_pcr hi.muxer hk _ _ hf
  obtain ⟨t, g4, g5⟩ := g3 rfl
  have hd := hi.dts
  rw [Int.emod_eq_of_lt hd.1 hd.2] at g5
  generalize packets true true (parsed y p).media y.pts y.dts (ccOf true y.muxer) = l at *
  cases l with
  | nil => simp at g4
  | cons t' ps =>
    simp only [List.head?_cons, Option.some.injEq] at g4
    subst g4
    exact ⟨out, t', ps, h1, h2, g1 t' (by simp), g5⟩

/-- A mixer that was told to announce both. -/
def hdrPacket (t : Int) (v : VideoHdr) (a : AudioHdr) (media : Bytes) : Packet := { type := t, header := some ⟨some v, some a⟩, media := media }
/-- The header of an AAC sequence header. -/
def aacCfg : Packet := hdrPacket 1 ⟨false, false, false, false, false, 0, 0⟩ ⟨10, 0, true, false, true⟩ [0x12, 0x10]
/-- The header of an H.264 sequence header with an SPS and a PPS. -/
def avcCfg : Packet := hdrPacket 0 ⟨true, false, true, false, true, 7, 0⟩ ⟨0, 0, false, false, false⟩
  [1, 100, 0, 31, 0xff, 0xe1, 0, 3, 0x67, 1, 2, 1, 0, 2, 0x68, 3]
/-- A mixer that both have been saved in. -/
def mixer2 : Mixer := (((Mixer.new Sink.mem).saveAVCHeader avcCfg).2.1.saveAACHeader aacCfg).2.1

theorem announced_mixer2 : Announced mixer2 true true := .aac aacCfg (.avc avcCfg (.new Sink.mem))

theorem mixer2_eq : mixer2 = MixOp.after (MixOp.after (Mixer.new Sink.mem) (.saveAVC avcCfg)) (.saveAAC aacCfg) := by
  simp only [MixOp.after, mixer2]

theorem reach_mixer2 : MixReach mixer2 := by
  rw [mixer2_eq]
  exact MixReach.op (MixReach.op ⟨_, .new Sink.mem⟩ (.saveAVC avcCfg)) (.saveAAC aacCfg)

theorem works_mixer2 : mixer2.ts.Reliable := by
  have e : ∀ (x : Mixer) (p : Packet), (x.saveAVCHeader p).2.1.ts = x.ts := fun x p => (saveHeader_parts { x with types := x.types.isVideo } p).2.2.2.2.2.2.1
  have e' : ∀ (x : Mixer) (p : Packet), (x.saveAACHeader p).2.1.ts = x.ts := fun x p => (saveHeader_parts { x with types := x.types.isAudio } p).2.2.2.2.2.2.1
  rw [mixer2, e', e]
  exact fun _ => rfl

example : Announced mixer2 true true ∧ MixReach mixer2 ∧ mixer2.setTsHeader.1 = .ok () ∧ mixer2.ts.Reliable :=
  ⟨announced_mixer2, reach_mixer2, by decide +kernel, works_mixer2⟩

example : Announced ((Mixer.new Sink.mem).saveAVCHeader avcCfg).2.1 true false ∧
    ((Mixer.new Sink.mem).saveAVCHeader avcCfg).2.1.setTsHeader.1 = .ok () := ⟨.avc avcCfg (.new Sink.mem), by decide +kernel⟩

/-! ## C56 -/

/-- C56 fails for every time stamp of 47721859 ms (about 13 hours and 15 minutes) and more: the decoding time stamp
is not 90 times the packet's, neither is it equal to it modulo 2^33. -/
theorem C56_overflow_refuted {x : Mixer} (h : MixReach x) (p : Packet) (ht : p.type = 0) (a b : UInt32) (ha : 47721859 ≤ a.toNat) :
    ∃ y, x.update p a b = (.ok (), y) ∧ y.dts ≠ 90 * a.toNat ∧ (a.toNat < 95443717 → y.dts ≠ 90 * (a.toNat : Int) % 2 ^ 33) := by
  obtain ⟨hs, h⟩ := h
  refine ⟨_, (update_eq (MixHist.inv h) p a b).1 ht, ?_⟩
  simp only [ticks, UInt32.toNat_mul]
  have := a.toNat_lt
  have e33 : (2 : Int) ^ 33 = 8589934592 := rfl
  have e32 : (2 : Nat) ^ 32 = 4294967296 := rfl
  rw [e33, e32, show (90 : UInt32).toNat = 90 from rfl]
  refine ⟨by omega, fun hl => ?_⟩
  rw [Int.emod_eq_of_lt (by omega) (by omega)]
  omega

/-- The first one. -/
example : (mixer2.update { type := 0 } 47721858 0).2.dts = 4294967220 ∧ (mixer2.update { type := 0 } 47721859 0).2.dts = 14 := by
  decide +kernel

/-- C56 for time stamps below 47721859 ms.  Missing: later ones, for which the property does not hold. -/
theorem C56_timestamps_partial {x : Mixer} (h : MixReach x) (p : Packet) (a b : UInt32) (ha : a.toNat < 47721859) (hb : b.toNat < 47721859) :
    (p.type = 0 → ∃ y, x.update p a b = (.ok (), y) ∧ y.dts = 90 * a.toNat ∧ y.pts = 90 * a.toNat + 90 * b.toNat) ∧
    (p.type = 1 → (∃ r, x.parser.sampleRate = .ok r) → ∃ y, x.update p a b = (.ok (), y) ∧ y.pts = y.dts ∧
      y.dts - 90 * a.toNat ≤ 900 ∧ 90 * a.toNat - y.dts ≤ 900) := by
  obtain ⟨hs, h⟩ := h
  have e32 : (2 : Nat) ^ 32 = 4294967296 := rfl
  have ta : ticks a = 90 * a.toNat := by
    simp only [ticks, UInt32.toNat_mul, e32, show (90 : UInt32).toNat = 90 from rfl]; omega
  have tb : ticks b = 90 * b.toNat := by
    simp only [ticks, UInt32.toNat_mul, e32, show (90 : UInt32).toNat = 90 from rfl]; omega
  obtain ⟨u0, u1, -⟩ := update_eq (MixHist.inv h) p a b
  rw [ta, tb] at u0
  rw [ta] at u1
  refine ⟨fun ht => ⟨_, u0 ht, rfl, rfl⟩, fun ht hr => ?_⟩
  rcases u1 ht with ⟨o, s, e, -, -, -, -, g1, g2⟩ | ⟨hr', -⟩
  · exact ⟨_, e, rfl, g1, g2⟩
  · obtain ⟨r, hr⟩ := hr
    rw [hr] at hr'
    cases hr'

/-! ## C85, C86 -/

/-- What `Mux` of a mixer writes for a packet that the parser accepts. -/
theorem mixer_pes {x : Mixer} (h : MixReach x) (p : Packet) (hw : x.ts.Reliable) (hp : (Parser.parse p ⟨x.parser, Sink.mem⟩).1 = .ok ())
    {v key : Bool} (hk : Kind (parsed x p) v key) (hlen : key = true → 184 ≤ pesLen v (parsed x p) x.pts x.dts) :
    (x.mux p).1 = .ok () ∧ ∃ out pes, (x.mux p).2.1.ts.out = x.ts.out ++ out ∧ Carries out (if v then 0x100 else 0x101) pes ∧
      pes.streamId = (if v then 0xe0 else 0xc0) ∧ pes.pts = x.pts.toNat ∧
      pes.dts = (if v = true ∧ x.pts ≠ x.dts then some x.dts.toNat else none) ∧ pes.data = (parsed x p).media := by
  obtain ⟨hs, h⟩ := h
  have hi := MixHist.inv h
  obtain ⟨i, j, hh⟩ := hi.muxer
  have hg := Hist.good hh
  have hf : Fits v key (parsed x p) x.pts x.dts := fun e => .inr (hlen e)
  obtain ⟨m', h1, -⟩ := mux_reliable hg hk x.pts x.dts hf x.ts hw
  rw [x.mux_ok p hp (parsed x p) rfl, h1]
  refine ⟨rfl, _,
    { streamId := if v then 0xe0 else 0xc0
      length := if (pesBytes v (parsed x p).media x.pts x.dts).length - 6 ≤ 65535 then (pesBytes v (parsed x p).media x.pts x.dts).length - 6 else 0
      pts := x.pts.toNat
      dts := if v = true ∧ x.pts ≠ x.dts then some x.dts.toNat else none
      data := (parsed x p).media }, rfl, ⟨_, parse_packets _ (packets_parse hg hf), (packets_pcr hi.muxer hk _ _ hf).1,
    fun i t h => starts _ _ _ _ _ _ i t h, adaptation_some _ _ _ _ _ _ _ rfl, ?_⟩, rfl, rfl, rfl, rfl⟩
  rw [packets_payload _ _ _ _ _ _ (fun h => by have := hlen h; omega), parse_pesBytes, adj_small _ hi.dts.1 hi.dts.2, adj_small _ hi.pts.1 hi.pts.2]

theorem MixConf.reach {x : Mixer} {o i c : Nat} (h : MixConf x o i c) : MixReach x := by
  induction h with
  | config op p o i c l extra h _ _ _ _ _ _ _ => exact MixReach.op h op
  | other op _ _ ih => exact MixReach.op ih op

theorem after_parser (x : Mixer) (op : MixOp) :
    (∀ p, op.packet = some p → (op.after x).parser = (Parser.parse p ⟨x.parser, Sink.mem⟩).2.p) ∧
    (op.packet = none → (op.after x).parser = x.parser) := by
  cases op with
  | setWriter w => exact ⟨by simp [MixOp.packet], fun _ => rfl⟩
  | saveMetadata md => exact ⟨by simp [MixOp.packet], fun _ => rfl⟩
  | mux p => exact ⟨fun q hq => by cases hq; exact (mux_parts x p).1, by simp [MixOp.packet]⟩
  | saveAVC p => exact ⟨fun q hq => by cases hq; exact (saveHeader_parts { x with types := x.types.isVideo } p).1, by simp [MixOp.packet]⟩
  | saveAAC p => exact ⟨fun q hq => by cases hq; exact (saveHeader_parts { x with types := x.types.isAudio } p).1, by simp [MixOp.packet]⟩
  | header => exact ⟨by simp [MixOp.packet], fun _ => (header_parts x).1⟩
  | update p a b =>
    refine ⟨by simp [MixOp.packet], fun _ => ?_⟩
    show (x.update p a b).2.parser = x.parser
    unfold Mixer.update
    simp only
    split
    · rfl
    split
    · split
      · split <;> rfl
      all_goals rfl
    · rfl

/-- The AAC parser after the last configuration. -/
theorem MixConf.parser {x : Mixer} {o i c : Nat} (h : MixConf x o i c) :
    x.parser.aac = some ⟨true, UInt8.ofNat o, UInt8.ofNat i, UInt8.ofNat c⟩ ∧ o < 32 ∧ i < 13 ∧ c < 16 := by
  induction h with
  | @config x op p o i c l extra _ hp ha hm ho hi hc hl =>
    refine ⟨?_, ho, hi, hc⟩
    rw [(after_parser x op).1 p hp, (codec_aac p x.parser Sink.mem).1 ha, hm]
    obtain ⟨b0, b1, hb, h1, h2, h3⟩ := Aac.config_fields o i c l (by omega) (by omega) (by omega) hl
    have e := Aac.specific_eq b0 b1 extra ⟨x.parser.aac.getD .new, Sink.mem⟩
    rw [h1, h2, h3] at e
    rw [hb]
    simp only [List.cons_append, List.nil_append]
    rw [e]
  | @other x o i c op _ hn ih =>
    refine ⟨?_, ih.2⟩
    cases hp : op.packet with
    | none => rw [(after_parser x op).2 hp]; exact ih.1
    | some p =>
      rw [(after_parser x op).1 p hp]
      exact (codec_aac p x.parser Sink.mem).2 (hn p hp) _ ih.1

/-- C85.  An AAC frame that goes through `Demux`, `Update` and `Mux` arrives on PID 0x101 as a PES packet with an
ADTS header and the frame; its time stamp is within 10 ms of the packet's (see C56 for packets of 47721859 ms or
more). -/
theorem C85_aac_end_to_end {x : Mixer} {o i c : Nat} (hx : MixConf x o i c) (ho : 1 ≤ o ∧ o ≤ 4) (hc : c ≤ 7) (hw : x.ts.Reliable)
    (p : Packet) (ht : p.type = 1) (b0 : UInt8) (frame : Bytes) (hd : p.data = b0 :: 1 :: frame) (hb : b0.toNat / 16 = 10)
    (hf : frame ≠ []) (hn : frame.length ≤ 8184) (a b : UInt32) :
    ∃ q y out pes hdr, Flv.demux p = (.ok (), q) ∧ x.update q a b = (.ok (), y) ∧ (y.mux q).1 = .ok () ∧
      (y.mux q).2.1.ts.out = x.ts.out ++ out ∧ Carries out 0x101 pes ∧ pes.streamId = 0xc0 ∧ pes.dts = none ∧
      ((pes.pts : Int) - 90 * a.toNat % 2 ^ 32 ≤ 900 ∧ 90 * a.toNat % 2 ^ 32 - (pes.pts : Int) ≤ 900) ∧
      pes.data = hdr ++ frame ∧ hdr.length = 7 ∧
      readAdts (hdr ++ frame) = some
        ({ mpeg4 := true, layer := 0, crcAbsent := true, profile := o - 1, rateIndex := i, privateBit := 0
           channels := c, frameLength := 7 + frame.length, blocks := 0 }, frame) := by
  obtain ⟨q0, h0, h1⟩ := (C08_flv_audio_header p ht b0 1 frame hd).1 hb
  obtain ⟨vh, ah, g1, -⟩ := demux_header p (by rw [h0])
  rw [h0] at g1
  simp only [Option.some.injEq] at g1
  subst g1
  simp only [Option.some.injEq] at h1
  subst h1
  generalize hq : ({ p with header := some ⟨some vh, some (audioAnswers 10 (1 : UInt8).toNat)⟩, media := frame } : Packet) = q at *
  obtain ⟨ha, -, hi, -⟩ := MixConf.parser hx
  have hre := MixConf.reach hx
  obtain ⟨hs, hh⟩ := hre
  have hinv := MixHist.inv hh
  have hqt : q.type = 1 := by rw [← hq]; exact ht
  have hqh : q.header = some ⟨some vh, some (audioAnswers 10 (1 : UInt8).toNat)⟩ := by rw [← hq]
  have hqm : q.media = frame := by rw [← hq]
  rcases (update_eq hinv q a b).2.1 hqt with ⟨d, s, e, -, -, -, d0, d1, d2⟩ | ⟨e, -⟩
  · have hy : MixReach { x with dts := d, pts := d, sync := s } := by
      have := MixReach.op ⟨hs, hh⟩ (.update q a b)
      unfold MixOp.after at this
      simp only at this
      rw [e] at this
      exact this
    generalize hyy : ({ x with dts := d, pts := d, sync := s } : Mixer) = y at *
    have hyp : y.parser = x.parser := by rw [← hyy]
    have hyt : y.ts = x.ts := by rw [← hyy]
    have hyd : y.dts = d := by rw [← hyy]
    have hyq : y.pts = d := by rw [← hyy]
    have hpar := (C68_routes q vh _ hqh y.parser Sink.mem).2.1 hqt rfl _ rfl
    rw [hqm, hyp, ha] at hpar
    generalize hA : (⟨true, UInt8.ofNat o, UInt8.ofNat i, UInt8.ofNat c⟩ : Aac.Parser) = A at *
    have hg : A.gotSpecific = true := by rw [← hA]
    have haac := Aac.raw_eq frame ⟨A, Sink.mem⟩ hf hg
    rw [Dev.onW_apply, ((Emits.write _).bind (Emits.write frame)).reliable Sink.mem (fun _ => rfl)] at haac
    rw [show (audioAnswers 10 (1 : UInt8).toNat).aacType = 1 from rfl, Option.getD_some, haac, ← hyp] at hpar
    have hkind : Kind (parsed y q) false false := .audio hqt
    have hm : (parsed y q).media = Aac.adtsHeader A frame.length ++ frame := by
      show (Parser.parse q ⟨y.parser, Sink.mem⟩).2.w.out = _
      rw [hpar]; simp [Sink.mem]
    obtain ⟨k1, out, pes, k2, k3, k4, k5, k6, k7⟩ := mixer_pes hy q (by rw [hyt]; exact hw) (by rw [hpar]) hkind (by simp)
    refine ⟨q, y, out, pes, Aac.adtsHeader A frame.length, h0, e, k1, by rw [k2, hyt], k3, k4, by simpa using k6, ?_, by rw [k7, hm], rfl, ?_⟩
    · rw [k5, hyq]
      have : ticks a = 90 * a.toNat % 2 ^ 32 := by
        simp only [ticks, UInt32.toNat_mul, show (90 : UInt32).toNat = 90 from rfl]
        have e32 : (2 : Nat) ^ 32 = 4294967296 := rfl
        have f32 : (2 : Int) ^ 32 = 4294967296 := rfl
        rw [e32, f32]; omega
      rw [← this]
      omega
    · rw [Aac.readAdts_header _ _ _ (by rw [← hA]; simp; omega) (by rw [← hA]; simp; omega), ← hA]
      simp only [UInt8.toNat_ofNat']
      congr 3 <;> omega
  · obtain ⟨r, h1, -⟩ := aacRate_table ⟨true, UInt8.ofNat o, UInt8.ofNat i, UInt8.ofNat c⟩
    unfold Parser.CodecParser.sampleRate at e
    rw [ha] at e
    simp only [h1] at e
    cases e

theorem conf_mixer2 : MixConf mixer2 2 4 2 := by
  rw [mixer2_eq]
  exact .config (.saveAAC aacCfg) aacCfg 2 4 2 0 [] (MixReach.op ⟨_, .new Sink.mem⟩ (.saveAVC avcCfg)) rfl
    ⟨rfl, _, _, rfl, rfl, rfl⟩ (by decide +kernel) (by decide) (by decide) (by decide) (by decide)

/-- An instance. -/
example : ∃ out pes, Carries out 0x101 pes ∧
    ((mixer2.update (Flv.demux { type := 1, data := [0xaf, 1, 9, 8, 7] }).2 1000 0).2.mux
      (Flv.demux { type := 1, data := [0xaf, 1, 9, 8, 7] }).2).2.1.ts.out = out ∧
    pes.data = [0xff, 0xf1, 0x50, 0x80, 0x01, 0x5f, 0xfc, 9, 8, 7] ∧ pes.pts = 90000 :=
  ⟨_, ⟨0xc0, 18, 90000, none, [0xff, 0xf1, 0x50, 0x80, 0x01, 0x5f, 0xfc, 9, 8, 7]⟩, ⟨[⟨true, 0x101, 2, some ([0] ++ List.replicate 158 0xff),
    [0, 0, 1, 0xc0, 0, 18, 0x80, 0x80, 5, 0x21, 0, 5, 0xbf, 0x21, 0xff, 0xf1, 0x50, 0x80, 0x01, 0x5f, 0xfc, 9, 8, 7]⟩], by decide +kernel, by decide,
    by intro i t h; match i, h with | 0, h => cases h; simp, by decide +kernel, by decide +kernel⟩, rfl, rfl, rfl⟩

/-- The steps before `Mux` for a video frame. -/
theorem avc_setup {x : Mixer} {hs : List (Bytes × Bytes × Bytes)} (hx : MixHist x hs)
    (p : Packet) (ht : p.type = 0) (b0 b2 b3 b4 : UInt8) (nals : List Bytes) (hd : p.data = b0 :: 1 :: b2 :: b3 :: b4 :: avcc nals)
    (hb : b0.toNat / 16 = 1 ∨ b0.toNat / 16 = 2) (hb7 : b0.toNat % 16 = 7)
    (hn : ∀ n ∈ nals, Supported n) (hne : nals ≠ []) (h1 : ∀ n, nals.head? = some n → n.length ≠ 1) (a b : UInt32)
    (au : Bytes) (hau : au = accessUnit (annexB (hs.flatMap fun x => [x.1, x.2.1 ++ x.2.2])) nals) :
    ∃ q y, Flv.demux p = (.ok (), q) ∧ x.update q a b = (.ok (), y) ∧ MixReach y ∧ y.ts = x.ts ∧
      (Parser.parse q ⟨y.parser, Sink.mem⟩).1 = .ok () ∧ Kind (parsed y q) true (decide (b0.toNat / 16 = 1)) ∧ (parsed y q).media = au ∧
      y.dts = (90 * a.toNat % 2 ^ 32 : Nat) ∧ y.pts = (90 * a.toNat % 2 ^ 32 : Nat) + (90 * b.toNat % 2 ^ 32 : Nat) := by
  obtain ⟨q0, h0, h2⟩ := C07_flv_video_header p ht b0 1 b2 b3 b4 (avcc nals) hd hb
  obtain ⟨vh, ah, g1, -⟩ := demux_header p (by rw [h0])
  rw [h0] at g1
  simp only [Option.some.injEq] at g1
  subst g1
  simp only [Option.some.injEq] at h2
  generalize hq : ({ p with header := some ⟨some vh, some ah⟩, media := avcc nals } : Packet) = q at *
  have hinv := MixHist.inv hx
  have hqt : q.type = 0 := by rw [← hq]; exact ht
  have hqh : q.header = some ⟨some vh, some ah⟩ := by rw [← hq]
  have hqm : q.media = avcc nals := by rw [← hq]
  have e := (update_eq hinv q a b).1 hqt
  have hy : MixReach { x with dts := ticks a, pts := ticks a + ticks b } := by
    have := MixReach.op ⟨hs, hx⟩ (.update q a b)
    unfold MixOp.after at this
    simp only at this
    rw [e] at this
    exact this
  have tk : ∀ t : UInt32, ticks t = (90 * t.toNat % 2 ^ 32 : Nat) := by
    intro t
    simp only [ticks, UInt32.toNat_mul, show (90 : UInt32).toNat = 90 from rfl, Nat.mul_comm]
  generalize hyy : ({ x with dts := ticks a, pts := ticks a + ticks b } : Mixer) = y at *
  have hyp : y.parser = x.parser := by rw [← hyy]
  have hyt : y.ts = x.ts := by rw [← hyy]
  have hyd : y.dts = (90 * a.toNat % 2 ^ 32 : Nat) := by rw [← hyy]; exact tk a
  have hyq : y.pts = (90 * a.toNat % 2 ^ 32 : Nat) + (90 * b.toNat % 2 ^ 32 : Nat) := by rw [← hyy, ← tk, ← tk]
  obtain ⟨w', k1, k2⟩ := C59_annexb _ hs hinv.h264 nals hn hne h1 Sink.mem (fun _ => rfl)
  rw [← hau] at k2
  have hc : vh.isCodecAvc = true ∧ vh.isSeqHdr = false ∧ vh.isKeyFrame = decide (b0.toNat / 16 = 1) := by
    rw [h2]
    simp only [videoAnswers, hb7]
    refine ⟨by decide, by simp, ?_⟩
    rw [Bool.eq_iff_iff]; simp
  have hpar := (C68_routes q vh _ hqh y.parser Sink.mem).1 hqt hc.1 _ rfl
  rw [hqm, hyp, hc.2.1, k1, ← hyp] at hpar
  have hkind : Kind (parsed y q) true (decide (b0.toNat / 16 = 1)) := by
    rw [← hc.2.2]
    exact .video vh hqt (by simp [Packet.asVideo, parsed, hqh])
  have hm : (parsed y q).media = au := by
    show (Parser.parse q ⟨y.parser, Sink.mem⟩).2.w.out = _
    rw [hpar]; simpa [Sink.mem] using k2
  exact ⟨q, y, h0, e, hy, hyt, by rw [hpar], hkind, hm, hyd, hyq⟩

/-- C86.  A video frame that goes through `Demux`, `Update` and `Mux` arrives on PID 0x100 as a PES packet with the
access unit in Annex-B form (with the parameter sets of the configuration records seen so far before the first IDR unit,
if the frame brings none) and the time stamps of the frame.

Full claim: the same without `hlen` (`C47`, `C48`: small key frames panic or have stuffing in front of the PES header)
and with the stamps `90 * a` and `90 * (a + composition time)` for every `a` (`C56`: they wrap at 2^32 instead of 2^33). -/
theorem C86_avc_end_to_end_partial {x : Mixer} {hs : List (Bytes × Bytes × Bytes)} (hx : MixHist x hs) (hw : x.ts.Reliable)
    (p : Packet) (ht : p.type = 0) (b0 b2 b3 b4 : UInt8) (nals : List Bytes) (hd : p.data = b0 :: 1 :: b2 :: b3 :: b4 :: avcc nals)
    (hb : b0.toNat / 16 = 1 ∨ b0.toNat / 16 = 2) (hb7 : b0.toNat % 16 = 7)
    (hn : ∀ n ∈ nals, Supported n) (hne : nals ≠ []) (h1 : ∀ n, nals.head? = some n → n.length ≠ 1) (a b : UInt32)
    (au : Bytes) (hau : au = accessUnit (annexB (hs.flatMap fun x => [x.1, x.2.1 ++ x.2.2])) nals)
    (hlen : b0.toNat / 16 = 1 → 184 ≤ (if 90 * b.toNat % 2 ^ 32 = 0 then 14 else 19) + au.length) :
    ∃ q y out pes, Flv.demux p = (.ok (), q) ∧ x.update q a b = (.ok (), y) ∧ (y.mux q).1 = .ok () ∧
      (y.mux q).2.1.ts.out = x.ts.out ++ out ∧ Carries out 0x100 pes ∧ pes.streamId = 0xe0 ∧
      pes.pts = 90 * a.toNat % 2 ^ 32 + 90 * b.toNat % 2 ^ 32 ∧ pes.dts.getD pes.pts = 90 * a.toNat % 2 ^ 32 ∧
      pes.data = au := by
  obtain ⟨q, y, h0, e, hy, hyt, hpar, hkind, hm, hyd, hyq⟩ := avc_setup hx p ht b0 b2 b3 b4 nals hd hb hb7 hn hne h1 a b au hau
  generalize hA : 90 * a.toNat % 2 ^ 32 = A at *
  generalize hB : 90 * b.toNat % 2 ^ 32 = B at *
  obtain ⟨m1, out, pes, m2, m3, m4, m5, m6, m7⟩ := mixer_pes hy q (by rw [hyt]; exact hw) hpar hkind (by
    intro hkey
    have := hlen (by simpa using hkey)
    unfold pesLen
    rw [hm, hyd, hyq]
    by_cases hB0 : B = 0
    · rw [if_pos hB0] at this
      split <;> omega
    · rw [if_neg hB0] at this
      rw [if_pos ⟨rfl, by omega⟩]
      omega)
  refine ⟨q, y, out, pes, h0, e, m1, by rw [m2, hyt], m3, m4, ?_, ?_, by rw [m7, hm]⟩
  · rw [m5, hyq]; omega
  · rw [m6, m5, hyd, hyq]
    by_cases hB0 : B = 0
    · rw [if_neg (by omega)]
      simp only [Option.getD_none]
      omega
    · rw [if_pos ⟨rfl, by omega⟩]
      simp only [Option.getD_some]
      omega

/-- The code violates the claim for every key frame with a PES packet of less than 184 bytes: from 176 bytes on `Mux` panics, and with
less what arrives on PID 0x100 is not a PES packet. -/
theorem C86_small_key_frame_refuted {x : Mixer} {hs : List (Bytes × Bytes × Bytes)} (hx : MixHist x hs) (hw : x.ts.Reliable)
    (p : Packet) (ht : p.type = 0) (b0 b2 b3 b4 : UInt8) (nals : List Bytes) (hd : p.data = b0 :: 1 :: b2 :: b3 :: b4 :: avcc nals)
    (hb : b0.toNat / 16 = 1) (hb7 : b0.toNat % 16 = 7)
    (hn : ∀ n ∈ nals, Supported n) (hne : nals ≠ []) (h1 : ∀ n, nals.head? = some n → n.length ≠ 1) (a b : UInt32)
    (au : Bytes) (hau : au = accessUnit (annexB (hs.flatMap fun x => [x.1, x.2.1 ++ x.2.2])) nals)
    (len : Nat) (hlen : len = (if 90 * b.toNat % 2 ^ 32 = 0 then 14 else 19) + au.length) :
    ∃ q y, Flv.demux p = (.ok (), q) ∧ x.update q a b = (.ok (), y) ∧
      (176 ≤ len ∧ len < 184 → (y.mux q).1 = .panic) ∧
      (len < 176 → ∃ out, (y.mux q).1 = .ok () ∧ (y.mux q).2.1.ts.out = x.ts.out ++ out ∧ ∃ ps, parseStream out = some ps ∧
        ps ≠ [] ∧ (∀ t ∈ ps, t.pid = 0x100) ∧ (∀ i t, ps[i]? = some t → (t.start = true ↔ i = 0)) ∧ parsePes (payload ps) = none) := by
  obtain ⟨q, y, h0, e, hy, hyt, hpar, hkind, hm, hyd, hyq⟩ := avc_setup hx p ht b0 b2 b3 b4 nals hd (.inl hb) hb7 hn hne h1 a b au hau
  refine ⟨q, y, h0, e, ?_⟩
  rw [decide_eq_true hb] at hkind
  have hl : pesLen true (parsed y q) y.pts y.dts = len := by
    unfold pesLen
    rw [hm, hyd, hyq]
    generalize 90 * a.toNat % 2 ^ 32 = A at *
    generalize 90 * b.toNat % 2 ^ 32 = B at *
    by_cases hB0 : B = 0
    · rw [if_pos hB0] at hlen
      rw [if_neg (by omega)]; exact hlen.symm
    · rw [if_neg hB0] at hlen
      rw [if_pos ⟨rfl, by omega⟩]; exact hlen.symm
  obtain ⟨hs', hy⟩ := hy
  have hr : Reach y.muxer := (MixHist.inv hy).muxer
  rw [y.mux_ok q hpar (parsed y q) rfl, ← hl]
  refine ⟨fun h => C48_key_frame_panics_refuted hr hkind y.dts y.pts h.1 h.2 y.ts, fun h176 => ?_⟩
  obtain ⟨ps, g1, g2⟩ := C47_small_key_frame_refuted hr hkind y.dts y.pts h176
  obtain ⟨out, g3, g4, g5⟩ := g1 y.ts (by rw [hyt]; exact hw)
  exact ⟨out, g3, by rw [← hyt]; exact g4, ps, g5, g2⟩

theorem hist_mixer2 : MixHist mixer2 [([0x67, 1, 2], [0x68, 3], [])] := by
  rw [mixer2_eq]
  refine .other (.saveAAC aacCfg) (.record (.saveAVC avcCfg) avcCfg _ _ _ (.new Sink.mem) rfl ⟨rfl, _, _, rfl, rfl, rfl⟩
    ⟨by simp, by decide, by simp, by decide, 1, 100, 0, 31, 0xff, 0xe1, 1, by decide⟩) ?_
  intro p hp ha
  cases hp
  exact absurd ha.1 (by decide)

/-- A key frame of three bytes. -/
example : ∃ q y, Flv.demux { type := 0, data := 0x17 :: 1 :: 0 :: 0 :: 0 :: avcc [[0x65, 1, 2]] } = (.ok (), q) ∧
    mixer2.update q 40 0 = (.ok (), y) ∧ ∃ out, (y.mux q).1 = .ok () ∧ (y.mux q).2.1.ts.out = mixer2.ts.out ++ out ∧
      ∃ ps, parseStream out = some ps ∧
        ps ≠ [] ∧ (∀ t ∈ ps, t.pid = 0x100) ∧ (∀ i t, ps[i]? = some t → (t.start = true ↔ i = 0)) ∧ parsePes (payload ps) = none := by
  obtain ⟨q, y, h1, h2, -, h3⟩ := C86_small_key_frame_refuted hist_mixer2 works_mixer2
    { type := 0, data := 0x17 :: 1 :: 0 :: 0 :: 0 :: avcc [[0x65, 1, 2]] } rfl 0x17 0 0 0 [[0x65, 1, 2]] rfl (by decide) (by decide)
    (by
      intro n hn
      simp only [List.mem_cons, List.not_mem_nil, or_false] at hn
      subst hn
      exact ⟨by simp, by simp, by decide⟩) (by simp) (by simp) 40 0 _ rfl 40 (by decide +kernel)
  exact ⟨q, y, h1, h2, h3 (by decide)⟩

/-- A frame with an IDR unit of 200 bytes, and an inter frame of three bytes. -/
example : (∀ n ∈ [(0x65 : UInt8) :: List.replicate 199 7], Supported n) ∧ (∀ n ∈ [[(0x41 : UInt8), 5, 6]], Supported n) := by
  refine ⟨?_, ?_⟩
  · intro n hn
    simp only [List.mem_cons, List.not_mem_nil, or_false] at hn
    subst hn
    exact ⟨by simp, by rw [List.length_cons, List.length_replicate]; decide, by decide⟩
  · intro n hn
    simp only [List.mem_cons, List.not_mem_nil, or_false] at hn
    subst hn
    exact ⟨by simp, by simp, by decide⟩

end Verif.Props
