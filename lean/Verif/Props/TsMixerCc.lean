import Verif.Props.TsMixer
/-!
# Property C87: continuity counters at the mixer output
-/
namespace Verif.Props
open Verif Verif.Ts Verif.Spec.Ts Verif.Spec.Es

/-- The counter that the next packet of a PID gets (modulo 16). -/
def cur (m : Muxer) (pid : Nat) : Nat :=
  if pid = 0 then (tabCc m.patCc).toNat
  else if pid = 0x1001 then (tabCc m.pmtCc).toNat
  else if pid = 0x100 then (ccOf true m).toNat + 1
  else (ccOf false m).toNat + 1

/-- `Run m ps m'`: from `m` to `m'` the packets `ps` have been written. -/
def Run (m : Muxer) (ps : List TsPacket) (m' : Muxer) : Prop :=
  ∀ pid, pid ≠ 0x11 → (∀ i t, (ps.filter (·.pid == pid))[i]? = some t → t.cc = (cur m pid + i) % 16) ∧
    ((pid = 0 ∨ pid = 0x1001 ∨ pid = 0x100 ∨ pid = 0x101) → cur m' pid % 16 = (cur m pid + (ps.filter (·.pid == pid)).length) % 16)

/-- The PIDs that a mixer uses. -/
def Known (ps : List TsPacket) : Prop :=
  ∀ t ∈ ps, t.pid = 0x11 ∨ t.pid = 0 ∨ t.pid = 0x1001 ∨ t.pid = 0x100 ∨ t.pid = 0x101

theorem Run.refl (m : Muxer) : Run m [] m := by
  intro pid _
  exact ⟨by simp, by simp⟩

theorem Run.trans {m m' m'' : Muxer} {ps qs : List TsPacket} (h : Run m ps m') (h' : Run m' qs m'') (hq : Known qs) : Run m (ps ++ qs) m'' := by
  intro pid hp
  obtain ⟨a1, a2⟩ := h pid hp
  obtain ⟨b1, b2⟩ := h' pid hp
  by_cases hk : pid = 0 ∨ pid = 0x1001 ∨ pid = 0x100 ∨ pid = 0x101
  · have a2 := a2 hk
    have b2 := b2 hk
    refine ⟨fun i t ht => ?_, fun _ => ?_⟩
    · rw [List.filter_append] at ht
      by_cases hi : i < (ps.filter (·.pid == pid)).length
      · rw [List.getElem?_append_left hi] at ht
        exact a1 i t ht
      · rw [List.getElem?_append_right (by omega)] at ht
        have := b1 _ t ht
        omega
    · rw [List.filter_append, List.length_append]
      omega
  · have : qs.filter (·.pid == pid) = [] := by
      rw [List.filter_eq_nil_iff]
      intro t ht e
      have := hq t ht
      simp only [beq_iff_eq] at e
      omega
    rw [List.filter_append, this, List.append_nil]
    exact ⟨a1, fun h => absurd h hk⟩

theorem bumpN_tab (v : Bool) (k : Nat) (m : Muxer) : (bumpN v k m).patCc = m.patCc ∧ (bumpN v k m).pmtCc = m.pmtCc := by
  induction k generalizing m with
  | zero => exact ⟨rfl, rfl⟩
  | succ k ih =>
    have := ih (bumped v m)
    cases v <;> exact this

/-- A PES packet. -/
theorem run_packets {m m' : Muxer} {a b : Nat} (hg : Good m a b) {p : Packet} (v key : Bool) (pts dts : Int)
    (ha : After v (packets v key p.media pts dts (ccOf v m)).length m m') :
    Run m (packets v key p.media pts dts (ccOf v m)) m' ∧ Known (packets v key p.media pts dts (ccOf v m)) := by
  have hpid : ∀ t ∈ packets v key p.media pts dts (ccOf v m), t.pid = if v then 0x100 else 0x101 := by
    intro x hx
    have := cut_pid _ _ _ _ _ _ _ x hx
    cases v <;> exact this
  have hcc : ∀ i t, (packets v key p.media pts dts (ccOf v m))[i]? = some t → t.cc = ((ccOf v m).toNat + 1 + i) % 16 :=
    fun i t ht => cut_cc _ _ _ _ _ _ _ (ccOf_lt v hg) i t ht
  have htab : m'.patCc = m.patCc ∧ m'.pmtCc = m.pmtCc := by
    rw [ha.2]
    exact bumpN_tab v _ m
  have hsame := ccOf_after ha v
  have hoth := ccOf_after ha (!v)
  rw [ccOf_bumpN_other] at hoth
  have hbump := ccOf_bumpN v (packets v key p.media pts dts (ccOf v m)).length m (ccOf_lt v hg)
  rw [← hsame] at hbump
  generalize packets v key p.media pts dts (ccOf v m) = ps at *
  constructor
  · intro pid hp
    by_cases hpv : pid = if v then 0x100 else 0x101
    · have hf : ps.filter (·.pid == pid) = ps := filter_all _ _ fun t ht => by rw [hpid t ht, hpv]; simp
      have hc : cur m pid = (ccOf v m).toNat + 1 := by rw [hpv]; cases v <;> rfl
      have hc' : cur m' pid = (ccOf v m').toNat + 1 := by rw [hpv]; cases v <;> rfl
      rw [hf, hc, hc']
      exact ⟨hcc, fun _ => by omega⟩
    · have hf : ps.filter (·.pid == pid) = [] := filter_none _ _ fun t ht => by
        rw [hpid t ht]; simp only [beq_eq_false_iff_ne]; exact fun e => hpv e.symm
      rw [hf]
      refine ⟨by simp, fun hk => ?_⟩
      have : cur m' pid = cur m pid := by
        unfold cur
        rw [htab.1, htab.2]
        rcases hk with rfl | rfl | rfl | rfl
        · rfl
        · rfl
        · cases v
          · show (ccOf true m').toNat + 1 = _
            rw [show ccOf true m' = ccOf true m from hoth]; rfl
          · exact absurd rfl hpv
        · cases v
          · exact absurd rfl hpv
          · show (ccOf false m').toNat + 1 = _
            rw [show ccOf false m' = ccOf false m from hoth]; rfl
      rw [this]; simp
  · intro t ht
    rw [hpid t ht]
    cases v <;> simp

/-- The tables. -/
theorem run_tables {m m' : Muxer} {a b : Nat} (hg : Good m a b) (hg' : Good m' (a + 1) (b + 1)) (hcc : ∀ v, ccOf v m' = ccOf v m)
    (s q r : TsPacket) (hs : s.pid = 0x11) (hq : q.pid = 0) (hr : r.pid = 0x1001) (hqc : q.cc = a % 16) (hrc : r.cc = b % 16) :
    Run m [s, q, r] m' ∧ Known [s, q, r] := by
  constructor
  · intro pid hp
    have h1 := hg.patCc
    have h2 := hg.pmtCc
    have h3 := hg'.patCc
    have h4 := hg'.pmtCc
    by_cases p0 : pid = 0
    · subst p0
      have hf : [s, q, r].filter (·.pid == 0) = [q] := by simp [hs, hq, hr]
      rw [hf]
      refine ⟨fun i t ht => ?_, fun _ => ?_⟩
      · match i, ht with
        | 0, ht =>
          simp only [List.getElem?_cons_zero, Option.some.injEq] at ht
          subst ht
          show _ = ((tabCc m.patCc).toNat + 0) % 16
          omega
      · show (tabCc m'.patCc).toNat % 16 = ((tabCc m.patCc).toNat + 1) % 16
        omega
    by_cases p1 : pid = 0x1001
    · subst p1
      have hf : [s, q, r].filter (·.pid == 0x1001) = [r] := by simp [hs, hq, hr]
      rw [hf]
      refine ⟨fun i t ht => ?_, fun _ => ?_⟩
      · match i, ht with
        | 0, ht =>
          simp only [List.getElem?_cons_zero, Option.some.injEq] at ht
          subst ht
          show _ = ((tabCc m.pmtCc).toNat + 0) % 16
          omega
      · show (tabCc m'.pmtCc).toNat % 16 = ((tabCc m.pmtCc).toNat + 1) % 16
        omega
    · have hf : [s, q, r].filter (·.pid == pid) = [] := by simp [hs, hq, hr]; omega
      rw [hf]
      refine ⟨by simp, fun _ => ?_⟩
      unfold cur
      rw [if_neg p0, if_neg p1, if_neg p0, if_neg p1, hcc, hcc]
      simp
  · intro t ht
    simp only [List.mem_cons, List.not_mem_nil, or_false] at ht
    rcases ht with rfl | rfl | rfl <;> omega

/-- A packet that is neither audio nor video (or has no video header) does not change anything. -/
theorem mux_nokind (p : Packet) (dts pts : Int) (e : Env) (h : ¬ ∃ v key, Kind p v key) :
    (Ts.mux p dts pts e).2 = e ∧ (Ts.mux p dts pts e).1 ≠ .ok () := by
  unfold Ts.mux
  by_cases h0 : p.type = 0
  · rw [if_pos (show p.type = PktVideo from h0)]
    cases hh : p.asVideo with
    | ok vh => exact absurd ⟨_, _, .video vh h0 hh⟩ h
    | err e => simp [GoM.bind_apply]
    | panic => simp [GoM.bind_apply]
    | diverge => simp [GoM.bind_apply]
  · by_cases h1 : p.type = 1
    · exact absurd ⟨_, _, .audio h1⟩ h
    · rw [if_neg (show ¬ p.type = PktVideo from h0), if_neg (show ¬ p.type = PktAudio from h1)]
      simp [GoM.bind_apply]

/-- What is known after calls that are `Quiet`. -/
structure QInv (x y : Mixer) : Prop where
  reach : MixReach y
  works : y.ts.Reliable
  out : ∃ l : List (Bytes × TsPacket), y.ts.out = x.ts.out ++ (l.map (·.1)).flatten ∧
    (∀ t ∈ l, t.1.length = 188 ∧ parsePacket t.1 = some t.2) ∧ Known (l.map (·.2)) ∧ Run x.muxer (l.map (·.2)) y.muxer

theorem QInv.same {x y z : Mixer} (h : QInv x y) (hr : MixReach z) (h1 : z.ts = y.ts) (h2 : z.muxer = y.muxer) : QInv x z := by
  refine ⟨hr, by rw [h1]; exact h.works, ?_⟩
  rw [h1, h2]
  exact h.out

theorem QInv.add {x y z : Mixer} (h : QInv x y) (hr : MixReach z) (hw : z.ts.Reliable) (l : List (Bytes × TsPacket))
    (h1 : z.ts.out = y.ts.out ++ (l.map (·.1)).flatten) (h2 : ∀ t ∈ l, t.1.length = 188 ∧ parsePacket t.1 = some t.2)
    (h3 : Known (l.map (·.2))) (h4 : Run y.muxer (l.map (·.2)) z.muxer) : QInv x z := by
  obtain ⟨k, g1, g2, g3, g4⟩ := h.out
  refine ⟨hr, hw, k ++ l, ?_, ?_, ?_, ?_⟩
  · rw [h1, g1]; simp
  · intro t ht
    rcases List.mem_append.mp ht with ht | ht
    · exact g2 t ht
    · exact h2 t ht
  · rw [List.map_append]
    intro t ht
    rcases List.mem_append.mp ht with ht | ht
    · exact g3 t ht
    · exact h3 t ht
  · rw [List.map_append]
    exact g4.trans h4 h3

theorem Quiet.inv {x y : Mixer} (h : Quiet x y) (hx : MixReach x) (hw : x.ts.Reliable) : QInv x y := by
  induction h with
  | refl => exact ⟨hx, hw, [], by simp, by simp, by intro t; simp, Run.refl _⟩
  | @mux y p _ hnp ih =>
    have hr := MixReach.op ih.reach (.mux p)
    obtain ⟨hs, hy⟩ := ih.reach
    obtain ⟨i, j, hh⟩ := (MixHist.inv hy).muxer
    have hg := Hist.good hh
    by_cases hp : (Parser.parse p ⟨y.parser, Sink.mem⟩).1 = .ok ()
    · by_cases hk : ∃ v key, Kind (parsed y p) v key
      · have hok : (y.mux p).1 = .ok () := by
          obtain ⟨v, key, hk⟩ := hk
          rw [y.mux_ok p hp (parsed y p) rfl] at hnp ⊢
          have hf : Fits v key (parsed y p) y.pts y.dts := by
            intro hkey
            have hv : v = true := by
              cases hk with
              | video vh _ _ => rfl
              | audio _ => exact absurd hkey (by decide)
            rw [hkey, hv] at hk
            rw [hv]
            by_cases h1 : pesLen true (parsed y p) y.pts y.dts < 176
            · exact .inl h1
            by_cases h2 : 184 ≤ pesLen true (parsed y p) y.pts y.dts
            · exact .inr h2
            have := (mux_panic (parsed y p) y.dts y.pts hk (by rw [pesBytes_length]; omega) (by rw [pesBytes_length]; omega) ⟨y.muxer, y.ts⟩ hg.len).1
            rw [this] at hnp
            exact absurd rfl hnp
          obtain ⟨m', h1, -⟩ := mux_reliable hg hk y.pts y.dts hf y.ts ih.works
          rw [h1]
        obtain ⟨v, key, m', -, hk, hf, ha, he⟩ := mixer_mux ⟨hs, hy⟩ p ih.works hok
        obtain ⟨r1, r2⟩ := run_packets hg (p := parsed y p) v key y.pts y.dts ha
        have hmm : ∀ l : List TsPacket, (l.map fun t => (bytesOf t, t)).map (·.2) = l := by simp [List.map_map, Function.comp_def]
        refine ih.add hr (by rw [he]; exact ih.works) ((packets v key (parsed y p).media y.pts y.dts (ccOf v y.muxer)).map fun t => (bytesOf t, t)) ?_ ?_ ?_ ?_
        · rw [he]; simp [List.map_map, Function.comp_def]
        · intro t ht
          obtain ⟨t, ht', rfl⟩ := List.mem_map.mp ht
          exact packets_parse hg hf t ht'
        · rw [hmm]; exact r2
        · rw [hmm, he]; exact r1
      · have e := y.mux_ok p hp (parsed y p) rfl
        have hn := (mux_nokind (parsed y p) y.dts y.pts ⟨y.muxer, y.ts⟩ hk).1
        refine ih.same hr ?_ ?_
        · rw [e, hn]
        · rw [e, hn]
    · refine ih.same hr ?_ ?_
      · rw [y.mux_rejected p hp]
      · rw [y.mux_rejected p hp]
  | @saveMetadata y md _ ih => exact ih.same (MixReach.op ih.reach (.saveMetadata md)) rfl rfl
  | @header y _ hnp ih =>
    have hr := MixReach.op ih.reach .header
    obtain ⟨hs, hy⟩ := ih.reach
    obtain ⟨i, j, hh⟩ := (MixHist.inv hy).muxer
    have hg := Hist.good hh
    have hd : y.metadata.length ≤ 163 := by
      by_cases hd : y.metadata.length ≤ 163
      · exact hd
      · rw [header_panic hg (by omega)] at hnp; exact absurd rfl hnp
    obtain ⟨m', h1, h2, h3⟩ := header_ok hg hd ih.works
    have hl := progInfo_length y.types.toSlice
    have hlen := pmtSec_length y.types.toSlice
    have hsh := pmt_short y.types
    have hls : (sdtSec y.metadata).length = 16 + y.metadata.length := by simp [sdtSec]; omega
    have p1 := parse_tabPacket 0x40 0x11 0 (sdtSec y.metadata) (by omega) (by decide) (by decide)
    have p2 := parse_tabPacket 0x40 0x00 (tabCc y.muxer.patCc) patHeader (by decide) (tabCc_lt _) (by decide)
    have p3 := parse_tabPacket 0x50 0x01 (tabCc y.muxer.pmtCc) (pmtSec y.types.toSlice) (by omega) (tabCc_lt _) (by decide)
    obtain ⟨t1, q1, c1⟩ : ∃ t, parsePacket (tabPacket 0x40 0x11 0 (sdtSec y.metadata)) = some t ∧ t.pid = 0x11 := ⟨_, p1, rfl⟩
    obtain ⟨t2, q2, c2, d2⟩ : ∃ t, parsePacket (tabPacket 0x40 0x00 (tabCc y.muxer.patCc) patHeader) = some t ∧ t.pid = 0 ∧ t.cc = i % 16 :=
      ⟨_, p2, rfl, hg.patCc⟩
    obtain ⟨t3, q3, c3, d3⟩ : ∃ t, parsePacket (tabPacket 0x50 0x01 (tabCc y.muxer.pmtCc) (pmtSec y.types.toSlice)) = some t ∧ t.pid = 0x1001 ∧ t.cc = j % 16 :=
      ⟨_, p3, rfl, hg.pmtCc⟩
    obtain ⟨r1, r2⟩ := run_tables hg h2 h3 t1 t2 t3 c1 c2 c3 d2 d3
    refine ih.add hr (by rw [h1]; exact ih.works) [(tabPacket 0x40 0x11 0 (sdtSec y.metadata), t1),
      (tabPacket 0x40 0x00 (tabCc y.muxer.patCc) patHeader, t2),
      (tabPacket 0x50 0x01 (tabCc y.muxer.pmtCc) (pmtSec y.types.toSlice), t3)] ?_ ?_ r2 (by rw [h1]; exact r1)
    · rw [h1]; simp
    · intro t ht
      simp only [List.mem_cons, List.not_mem_nil, or_false] at ht
      rcases ht with rfl | rfl | rfl
      · exact ⟨tabPacket_len (by omega), q1⟩
      · exact ⟨tabPacket_len (by decide), q2⟩
      · exact ⟨tabPacket_len (by omega), q3⟩
  | @update y p a b _ _ ih =>
    have hr := MixReach.op ih.reach (.update p a b)
    obtain ⟨hs, hy⟩ := ih.reach
    obtain ⟨u0, u1, u2⟩ := update_eq (MixHist.inv hy) p a b
    by_cases t0 : p.type = 0
    · exact ih.same hr (by rw [u0 t0]) (by rw [u0 t0])
    by_cases t1 : p.type = 1
    · rcases u1 t1 with ⟨o, s, e, -⟩ | ⟨-, e⟩
      · exact ih.same hr (by rw [e]) (by rw [e])
      · exact ih.same hr (by rw [e]) (by rw [e])
    · exact ih.same hr (by rw [u2 t0 t1]) (by rw [u2 t0 t1])

/-- C87 as long as no sequence header is saved: whatever else is called, and with whatever outcome, what has been written
since `SetWriter` is a transport stream, and on every PID but that of the SDT (`C92`) the counters are consecutive.

Full claim: the same with `SaveAVCHeader` and `SaveAACHeader` among the calls (`C87_saved_header_refuted`), and for PID
0x11. -/
theorem C87_mixer_continuity_partial {x y : Mixer} (hx : MixReach x) (w : Sink) (hw : w.Reliable) (h0 : w.out = [])
    (h : Quiet (x.setWriter w) y) :
    ∃ ps, parseStream y.ts.out = some ps ∧
      ∀ pid, pid ≠ 0x11 → ∃ s, ∀ i t, (ps.filter (·.pid == pid))[i]? = some t → t.cc = (s + i) % 16 := by
  obtain ⟨-, -, l, h1, h2, -, h4⟩ := Quiet.inv h (MixReach.op hx (.setWriter w)) hw
  refine ⟨l.map (·.2), ?_, fun pid hp => ⟨_, (h4 pid hp).1⟩⟩
  rw [h1]
  show parseStream (w.out ++ _) = _
  rw [h0, List.nil_append]
  exact parseStream_flatten l h2

/-- Saving a sequence header writes nothing but uses up one counter value. -/
theorem save_record {x : Mixer} (hx : MixReach x) (p : Packet) (hp : avcConfig p) {sps pps ext : Bytes} (hr : Record p.media sps pps ext) :
    ∃ y, x.saveAVCHeader p = (.ok (), y) ∧ y.1.ts = x.ts ∧ (ccOf true y.1.muxer).toNat = ((ccOf true x.muxer).toNat + 1) % 16 := by
  obtain ⟨hs, hx⟩ := hx
  obtain ⟨i, j, hh⟩ := (MixHist.inv hx).muxer
  have hg := Hist.good hh
  have hpar : Parser.parse p ⟨x.parser, Sink.mem⟩ = (.ok (), ⟨(Parser.parse p ⟨x.parser, Sink.mem⟩).2.p, Sink.mem⟩) := by
    obtain ⟨ht, v, a, hv, hc, hq⟩ := hp
    have e : Parser.parse p ⟨x.parser, Sink.mem⟩ = Parser.onH264 (H264.parse p.media true) ⟨x.parser, Sink.mem⟩ := by
      unfold Parser.parse
      rw [if_neg (by simp [hv]), if_pos (show p.type = PktVideo from ht)]
      simp only [Packet.asVideo, hv, GoM.lift_ok_bind, hc, hq, if_true]
    rw [e]
    unfold Parser.onH264
    rw [H264.parse_hdr _ _ (record_ne hr), H264.parseSpecific_ok _ p.media _ _ _ hr]
  generalize (Parser.parse p ⟨x.parser, Sink.mem⟩).2.p = c at hpar
  obtain ⟨ht, v, a, hv, -, -⟩ := hp
  have hk : Kind { p with media := [] } true v.isKeyFrame := .video v ht (by simp [Packet.asVideo, hv])
  have hf : Fits true v.isKeyFrame { p with media := [] } 0 0 := by
    intro _
    left
    show (if _ then 19 else 14) + 0 < 176
    split <;> decide
  obtain ⟨m', h1, h2⟩ := mux_reliable hg hk 0 0 hf Sink.mem (fun _ => rfl)
  have hlen : (packets true v.isKeyFrame [] 0 0 (ccOf true x.muxer)).length = 1 := by
    cases v.isKeyFrame <;> rfl
  have e := Mixer.saveHeader_ok { x with types := x.types.isVideo } p (by rw [hpar]) { p with media := [] } (by rw [hpar]; rfl)
  refine ⟨_, by
    show Mixer.saveHeader _ _ = _
    rw [e]
    simp only
    rw [h1], rfl, ?_⟩
  simp only
  rw [ccOf_after h2 true, ccOf_bumpN _ _ _ (ccOf_lt true hg)]
  simp only at hlen ⊢
  rw [hlen]

/-- C87 fails for every mixer: if a sequence header is saved between two video packets, the counters of PID 0x100 skip
a value. -/
theorem C87_saved_header_refuted {x : Mixer} (hx : MixReach x) (hw : x.ts.Reliable) (p q r : Packet)
    (hp : p.type = 0) (hpo : (x.mux p).1 = .ok ()) (hq : avcConfig q) {sps pps ext : Bytes} (hr : Record q.media sps pps ext)
    (y : Mixer) (hy : y = ((x.mux p).2.1.saveAVCHeader q).2.1) (ht : r.type = 0) (hro : (y.mux r).1 = .ok ()) :
    ((x.mux p).2.1.saveAVCHeader q).1 = .ok () ∧
    ∃ o1 o2 ps qs t1 t2, (y.mux r).2.1.ts.out = x.ts.out ++ o1 ++ o2 ∧ parseStream o1 = some ps ∧ parseStream o2 = some qs ∧
      (∀ t ∈ ps ++ qs, t.pid = 0x100) ∧ ps.getLast? = some t1 ∧ qs.head? = some t2 ∧ t2.cc = (t1.cc + 2) % 16 := by
  have hx1 := MixReach.op hx (.mux p)
  have hx2 := MixReach.op hx1 (.saveAVC q)
  simp only [MixOp.after] at hx1 hx2
  obtain ⟨z, e1, e2, e3⟩ := save_record hx1 q hq hr
  have hyz : y = z.1 := by rw [hy, e1]
  subst hyz
  clear hy
  rw [e1] at hx2
  obtain ⟨v, key, m', -, hk, hf, ha, he⟩ := mixer_mux hx p hw hpo
  have hw1 : (x.mux p).2.1.ts.Reliable := by rw [he]; exact hw
  have hwz : z.1.ts.Reliable := by rw [e2]; exact hw1
  obtain ⟨v', key', m'', -, hk', hf', ha', he'⟩ := mixer_mux hx2 r hwz hro
  have hv : v = true := by
    cases hk with
    | video _ _ _ => rfl
    | audio h => exact absurd (show p.type = 1 from h) (by rw [hp]; decide)
  have hv' : v' = true := by
    cases hk' with
    | video _ _ _ => rfl
    | audio h => exact absurd (show r.type = 1 from h) (by rw [ht]; decide)
  subst hv hv'
  obtain ⟨hs, hx⟩ := hx
  obtain ⟨i, j, hh⟩ := (MixHist.inv hx).muxer
  have hg := Hist.good hh
  obtain ⟨hs2, hx2⟩ := hx2
  obtain ⟨i2, j2, hh2⟩ := (MixHist.inv hx2).muxer
  have hg2 := Hist.good hh2
  have c1 : (ccOf true (x.mux p).2.1.muxer).toNat = ((ccOf true x.muxer).toNat + (packets true key (parsed x p).media x.pts x.dts (ccOf true x.muxer)).length) % 16 := by
    rw [he]
    show (ccOf true m').toNat = _
    rw [ccOf_after ha true, ccOf_bumpN _ _ _ (ccOf_lt true hg)]
  have k1 := packets_parse hg hf
  have k2 := packets_parse hg2 hf'
  have d1 : ∀ i t, (packets true key (parsed x p).media x.pts x.dts (ccOf true x.muxer))[i]? = some t → t.cc = ((ccOf true x.muxer).toNat + 1 + i) % 16 :=
    fun i t ht => cut_cc _ _ _ _ _ _ _ (ccOf_lt true hg) i t ht
  have d2 : ∀ i t, (packets true key' (parsed z.1 r).media z.1.pts z.1.dts (ccOf true z.1.muxer))[i]? = some t → t.cc = ((ccOf true z.1.muxer).toNat + 1 + i) % 16 :=
    fun i t ht => cut_cc _ _ _ _ _ _ _ (ccOf_lt true hg2) i t ht
  have n1 : packets true key (parsed x p).media x.pts x.dts (ccOf true x.muxer) ≠ [] := by
    obtain ⟨t, ts, h, -⟩ := cut_first true key x.dts (pesBytes true (parsed x p).media x.pts x.dts).length (ccOf true x.muxer) _ (pesBytes_ne true (parsed x p).media x.pts x.dts)
    intro e
    have h' : packets true key (parsed x p).media x.pts x.dts (ccOf true x.muxer) = t :: ts := h
    rw [e] at h'
    cases h'
  have n2 : packets true key' (parsed z.1 r).media z.1.pts z.1.dts (ccOf true z.1.muxer) ≠ [] := by
    obtain ⟨t, ts, h, -⟩ := cut_first true key' z.1.dts (pesBytes true (parsed z.1 r).media z.1.pts z.1.dts).length (ccOf true z.1.muxer) _ (pesBytes_ne true (parsed z.1 r).media z.1.pts z.1.dts)
    intro e
    have h' : packets true key' (parsed z.1 r).media z.1.pts z.1.dts (ccOf true z.1.muxer) = t :: ts := h
    rw [e] at h'
    cases h'
  have g1 := (packets_pcr (MixHist.inv hx).muxer hk _ _ hf).1
  have g2 := (packets_pcr (MixHist.inv hx2).muxer hk' _ _ hf').1
  have hout : (z.1.mux r).2.1.ts.out = x.ts.out ++ ((packets true key (parsed x p).media x.pts x.dts (ccOf true x.muxer)).map bytesOf).flatten ++
      ((packets true key' (parsed z.1 r).media z.1.pts z.1.dts (ccOf true z.1.muxer)).map bytesOf).flatten := by
    rw [he']
    show z.1.ts.out ++ _ = _
    rw [e2, he]
  generalize packets true key (parsed x p).media x.pts x.dts (ccOf true x.muxer) = ps at *
  generalize packets true key' (parsed z.1 r).media z.1.pts z.1.dts (ccOf true z.1.muxer) = qs at *
  refine ⟨by rw [e1], _, _, ps, qs, ps.getLast n1, qs.head n2, hout, parse_packets _ k1, parse_packets _ k2, ?_,
    List.getLast?_eq_some_getLast n1, List.head?_eq_some_head n2, ?_⟩
  · intro t ht
    rcases List.mem_append.mp ht with ht | ht
    · exact g1 t ht
    · exact g2 t ht
  · have a1 := d1 (ps.length - 1) (ps.getLast n1) (by rw [← List.getLast?_eq_getElem?]; exact List.getLast?_eq_some_getLast n1)
    have a2 := d2 0 (qs.head n2) (by rw [← List.head?_eq_getElem?]; exact List.head?_eq_some_head n2)
    have : 0 < ps.length := List.length_pos_iff.mpr n1
    omega

/-- An inter frame. -/
def interFrame : Packet := hdrPacket 0 ⟨false, true, false, false, true, 7, 0⟩ ⟨0, 0, false, false, false⟩ [0, 0, 0, 3, 0x41, 5, 6]

/-- Two inter frames and a sequence header between them: every hypothesis holds, and the counters are 2 and 4. -/
example : (mixer2.mux interFrame).1 = .ok () ∧ avcConfig avcCfg ∧ Record avcCfg.media [0x67, 1, 2] [0x68, 3] [] ∧
    (((mixer2.mux interFrame).2.1.saveAVCHeader avcCfg).2.1.mux interFrame).1 = .ok () ∧
    (parseStream (((mixer2.mux interFrame).2.1.saveAVCHeader avcCfg).2.1.mux interFrame).2.1.ts.out).map (·.map (·.cc)) = some [2, 4] :=
  ⟨by decide +kernel, ⟨rfl, _, _, rfl, rfl, rfl⟩, ⟨by simp, by decide, by simp, by decide, 1, 100, 0, 31, 0xff, 0xe1, 1, by decide⟩,
    by decide +kernel, by decide +kernel⟩

/-- A quiet history with two frames and a call that fails. -/
example : ∃ y, Quiet (mixer2.setWriter Sink.mem) y ∧ (parseStream y.ts.out).map (·.map fun t => (t.pid, t.cc)) =
    some [(0x100, 2), (0x100, 3)] :=
  ⟨_, .mux interFrame (.mux { type := 0 } (.mux interFrame .refl (by decide +kernel)) (by decide +kernel)) (by decide +kernel),
    by decide +kernel⟩

end Verif.Props
