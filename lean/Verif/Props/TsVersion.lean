import Verif.Spec.TsVersion
import Verif.Props.TsTune
/-!
# Property C175: changed tables reach the receivers
-/
namespace Verif.Props
open Verif Verif.Ts Verif.Spec.Ts Verif.Spec.Es

theorem tableOf_other {pid : Nat} {t : TsPacket} (h : t.pid ≠ pid) : tableOf pid t = none := by simp [tableOf, h]

theorem tableOf_known {pid : Nat} {t : TsPacket} {s : Section} (hp : t.pid = pid) (hs : parseSection t.payload = some s)
    (hv : (t.payload.getD 6 0).toNat / 2 % 32 = 0) : tableOf pid t = some (0, s) := by simp only [tableOf, hp, hs, hv, beq_self_eq_true, if_true, Option.map_some]

/-- Every table that `SetTsHeader` writes has version 0. -/
theorem header_versions {x : Mixer} (h : MixReach x) (hw : x.ts.Reliable) (hok : x.setTsHeader.1 = .ok ()) :
    x.setTsHeader.2.ts.Reliable ∧ ∃ out t1 t2 t3 s1 s3, x.setTsHeader.2.ts.out = x.ts.out ++ out ∧ parseStream out = some [t1, t2, t3] ∧
      t1.pid = 0x11 ∧ t2.pid = 0 ∧ t3.pid = 0x1001 ∧ tableOf 0x11 t1 = some (0, s1) ∧ tableOf 0x1001 t3 = some (0, s3) := by
  obtain ⟨hs, hx⟩ := h
  obtain ⟨i, j, hh⟩ := (MixHist.inv hx).muxer
  have hg := Hist.good hh
  have hd : x.metadata.length ≤ 163 := by
    by_cases hd : x.metadata.length ≤ 163
    · exact hd
    · rw [header_panic hg (by omega)] at hok; simp at hok
  obtain ⟨m', h1, -, -⟩ := header_ok hg hd hw
  have hl := progInfo_length x.types.toSlice
  have hlen := pmtSec_length x.types.toSlice
  have hsh := pmt_short x.types
  have hls : (sdtSec x.metadata).length = 16 + x.metadata.length := by simp [sdtSec]; omega
  have p1 := parse_tabPacket 0x40 0x11 0 (sdtSec x.metadata) (by omega) (by decide) (by decide)
  have p2 := parse_tabPacket 0x40 0x00 (tabCc x.muxer.patCc) patHeader (by decide) (tabCc_lt _) (by decide)
  have p3 := parse_tabPacket 0x50 0x01 (tabCc x.muxer.pmtCc) (pmtSec x.types.toSlice) (by omega) (tabCc_lt _) (by decide)
  obtain ⟨t1, q1, c1, s1, v1⟩ : ∃ t, parsePacket (tabPacket 0x40 0x11 0 (sdtSec x.metadata)) = some t ∧ t.pid = 0x11 ∧ ∃ s, tableOf 0x11 t = some (0, s) := by
    refine ⟨_, p1, rfl, ⟨0x42, 1, [0xFF, 0x01, 0xFF, 0x00, 0x01, 0xFC, 0x80, UInt8.ofNat x.metadata.length] ++ x.metadata⟩, ?_⟩
    have hsec := parse_section 0x42 0xF0 (UInt8.ofNat (17 + x.metadata.length)) 0x00 0x01 0xC1 0x00 0x00
      ([0xFF, 0x01, 0xFF, 0x00, 0x01, 0xFC, 0x80, UInt8.ofNat x.metadata.length] ++ x.metadata)
      (179 - (sdtSec x.metadata).length) (by rw [UInt8.toNat_ofNat']; simp; omega) rfl rfl rfl rfl
    exact tableOf_known rfl hsec (by simp [sdtSec])
  obtain ⟨t2, q2, c2⟩ : ∃ t, parsePacket (tabPacket 0x40 0x00 (tabCc x.muxer.patCc) patHeader) = some t ∧ t.pid = 0 := ⟨_, p2, rfl⟩
  have g3 := pmt_packet hg x.types.toSlice (pmt_short x.types)
  obtain ⟨t3, q3, c3, s3, v3⟩ : ∃ t, parsePacket (tabPacket 0x50 0x01 (tabCc x.muxer.pmtCc) (pmtSec x.types.toSlice)) = some t ∧ t.pid = 0x1001 ∧
      ∃ s, tableOf 0x1001 t = some (0, s) := by
    obtain ⟨_, e3, b3, hsec, _⟩ := pmt_section p3 g3
    refine ⟨_, p3, rfl, ⟨0x02, e3, b3⟩, ?_⟩
    exact tableOf_known rfl hsec (by simp [pmtSec])
  have hpp := parseStream_flatten [(tabPacket 0x40 0x11 0 (sdtSec x.metadata), t1),
      (tabPacket 0x40 0x00 (tabCc x.muxer.patCc) patHeader, t2),
      (tabPacket 0x50 0x01 (tabCc x.muxer.pmtCc) (pmtSec x.types.toSlice), t3)] (by
    intro t ht
    simp only [List.mem_cons, List.not_mem_nil, or_false] at ht
    rcases ht with rfl | rfl | rfl
    · exact ⟨tabPacket_len (by omega), q1⟩
    · exact ⟨tabPacket_len (by decide), q2⟩
    · exact ⟨tabPacket_len (by omega), q3⟩)
  simp only [List.map_cons, List.map_nil, List.flatten_cons, List.flatten_nil, List.append_nil] at hpp
  exact ⟨by rw [h1]; exact hw, tabPacket 0x40 0x11 0 (sdtSec x.metadata) ++ (tabPacket 0x40 0x00 (tabCc x.muxer.patCc) patHeader ++
    tabPacket 0x50 0x01 (tabCc x.muxer.pmtCc) (pmtSec x.types.toSlice)), t1, t2, t3, s1, s3, by rw [h1]; simp only [List.append_assoc],
    hpp, c1, c2, c3, v1, v3⟩

/-- Whatever is sent, the tables have version 0. -/
theorem Sent.inv {y x : Mixer} (h : Sent y x) (hy : MixReach y) (hw : y.ts.Reliable) :
    MixReach x ∧ x.ts.Reliable ∧ ∃ out ps, x.ts.out = y.ts.out ++ out ∧ parseStream out = some ps ∧
      ∀ t ∈ ps, ∀ pid, pid = 0x11 ∨ pid = 0x1001 → ∀ v s, tableOf pid t = some (v, s) → v = 0 := by
  induction h with
  | start => exact ⟨hy, hw, [], [], by simp, rfl, by simp⟩
  | @silent x o _ hts ih => exact ⟨MixReach.op ih.1 o, by rw [hts]; exact ih.2.1, by rw [hts]; exact ih.2.2⟩
  | @tables x _ hok ih =>
    obtain ⟨i1, i2, o, ps, i3, i4, i5⟩ := ih
    obtain ⟨k, out, t1, t2, t3, s1, s3, h1, h2, c1, c2, c3, v1, v3⟩ := header_versions i1 i2 hok
    refine ⟨MixReach.op i1 .header, k, o ++ out, _, by rw [h1, i3, List.append_assoc], parseStream_append i4 h2, ?_⟩
    intro t ht pid hp v s he
    rcases List.mem_append.mp ht with ht | ht
    · exact i5 t ht pid hp v s he
    · simp only [List.mem_cons, List.not_mem_nil, or_false] at ht
      rcases hp with rfl | rfl <;> rcases ht with rfl | rfl | rfl
      · rw [v1] at he; cases he; rfl
      · rw [tableOf_other (by omega)] at he; cases he
      · rw [tableOf_other (by omega)] at he; cases he
      · rw [tableOf_other (by omega)] at he; cases he
      · rw [tableOf_other (by omega)] at he; cases he
      · rw [v3] at he; cases he; rfl
  | @mux x p _ hok ih =>
    obtain ⟨i1, i2, o, ps, i3, i4, i5⟩ := ih
    obtain ⟨w, key, hk, hf, out, h1, h2⟩ := mixer_muxed i1 p i2 hok
    refine ⟨MixReach.op i1 (.mux p), mux_works i1 p i2 hok, o ++ out, _, by rw [h1, i3, List.append_assoc], parseStream_append i4 h2, ?_⟩
    intro t ht pid hp v s he
    rcases List.mem_append.mp ht with ht | ht
    · exact i5 t ht pid hp v s he
    · obtain ⟨hs, hx⟩ := i1
      have := (packets_pcr (MixHist.inv hx).muxer hk _ _ hf).1 t ht
      rw [tableOf_other (by rw [this]; rcases hp with rfl | rfl <;> cases w <;> decide)] at he
      cases he

theorem follow_kept (pid : Nat) (s : Section) (ps : List TsPacket) (h : ∀ t ∈ ps, ∀ v s, tableOf pid t = some (v, s) → v = 0) :
    ps.foldl (look pid) (some (0, s)) = some (0, s) := by
  induction ps with
  | nil => rfl
  | cons t ps ih =>
    have e : look pid (some (0, s)) t = some (0, s) := by
      unfold look
      cases ht : tableOf pid t with
      | none => rfl
      | some x =>
        obtain ⟨v, s'⟩ := x
        have := h t (by simp) v s' ht
        subst this
        rfl
    rw [List.foldl_cons, e]
    exact ih fun t' h' => h t' (by simp [h'])

/-- C175 fails for every session: after the first tables, whatever is saved, announced and sent later, a receiver that goes by the version
numbers never takes another service name (`pid` 0x11) or another list of streams (0x1001): all tables have the same version. -/
theorem C175_tables_refuted {y x : Mixer} (hy : MixReach y) (hw : y.ts.Reliable) (hok : y.setTsHeader.1 = .ok ()) (h : Sent y.setTsHeader.2 x) :
    ∃ first more ps qs, y.setTsHeader.2.ts.out = y.ts.out ++ first ∧ x.ts.out = y.ts.out ++ first ++ more ∧ parseStream first = some ps ∧
      parseStream (first ++ more) = some (ps ++ qs) ∧
      ∀ pid, pid = 0x11 ∨ pid = 0x1001 → follow pid ps ≠ none ∧ follow pid (ps ++ qs) = follow pid ps := by
  obtain ⟨k, out, t1, t2, t3, s1, s3, h1, h2, c1, c2, c3, v1, v3⟩ := header_versions hy hw hok
  obtain ⟨-, -, o, qs, h3, h4, h5⟩ := Sent.inv h (reach_header hy) k
  refine ⟨out, o, _, qs, h1, by rw [h3, h1], h2, parseStream_append h2 h4, ?_⟩
  intro pid hp
  have hf : ∃ s, follow pid [t1, t2, t3] = some (0, s) := by
    rcases hp with rfl | rfl
    · refine ⟨s1, ?_⟩
      simp [follow, look, v1, tableOf_other (pid := 0x11) (t := t2) (by omega), tableOf_other (pid := 0x11) (t := t3) (by omega)]
    · refine ⟨s3, ?_⟩
      simp [follow, look, v3, tableOf_other (pid := 0x1001) (t := t2) (by omega), tableOf_other (pid := 0x1001) (t := t1) (by omega)]
  obtain ⟨s, hf⟩ := hf
  refine ⟨by rw [hf]; simp, ?_⟩
  show (List.foldl (look pid) none ([t1, t2, t3] ++ qs)) = _
  rw [List.foldl_append]
  show List.foldl (look pid) (follow pid [t1, t2, t3]) qs = _
  rw [hf]
  exact follow_kept pid s qs fun t ht => h5 t ht pid hp

/-- C175 (partial): at all times the receiver has the streams of the first tables, which are the right ones as long as nothing else is
announced.  Missing: changes, see below. -/
theorem C175_streams_partial {y x : Mixer} (hy : MixReach y) (hw : y.ts.Reliable) {v a : Bool} (ha : Announced y v a)
    (hok : y.setTsHeader.1 = .ok ()) (h : Sent y.setTsHeader.2 x) :
    ∃ out ps, x.ts.out = y.ts.out ++ out ∧ parseStream out = some ps ∧
      streamsOf (follow 0x1001 ps) = some ((if v then [(0x1b, 0x100)] else []) ++ (if a then [(0x0f, 0x101)] else [])) := by
  obtain ⟨first, more, ps, qs, h1, h2, h3, h4, h5⟩ := C175_tables_refuted hy hw hok h
  obtain ⟨out, t1, t2, t3, e2, b2, e3, b3, g1, hpp, c1, c2, c3, s2, r2, s3, r3⟩ := header_tables hy ha hw hok
  have e : first = out := List.append_cancel_left (h1.symm.trans g1)
  subst e
  rw [h3] at hpp
  have := Option.some.inj hpp
  subst this
  refine ⟨first ++ more, _, by rw [h2, List.append_assoc], h4, ?_⟩
  rw [(h5 0x1001 (.inr rfl)).2]
  have e1 := tableOf_other (pid := 0x1001) (t := t1) (by omega)
  have e2 := tableOf_other (pid := 0x1001) (t := t2) (by omega)
  have e3' : ∃ n, tableOf 0x1001 t3 = some (n, ⟨0x02, e3, b3⟩) := ⟨_, by unfold tableOf; rw [c3, s3]; rfl⟩
  obtain ⟨n, e3'⟩ := e3'
  simp only [follow, List.foldl_cons, List.foldl_nil, look, e1, e2, e3', Option.map_none, streamsOf]
  simp only [show ((none : Option Nat) = some n) = False from by simp, if_false, Option.bind_some, r3]
  cases v <;> cases a <;> rfl

/-- C175 fails for a stream that is announced later: with the tables sent as often as one likes, the receiver keeps the streams of the first ones. -/
theorem C175_streams_refuted {y x : Mixer} (hy : MixReach y) (hw : y.ts.Reliable) {v a v' a' : Bool} (ha : Announced y v a)
    (hok : y.setTsHeader.1 = .ok ()) (h : Sent y.setTsHeader.2 x) (_ha' : Announced x v' a') (hne : (v, a) ≠ (v', a')) :
    ∃ out ps, x.ts.out = y.ts.out ++ out ∧ parseStream out = some ps ∧
      streamsOf (follow 0x1001 ps) ≠ some ((if v' then [(0x1b, 0x100)] else []) ++ (if a' then [(0x0f, 0x101)] else [])) := by
  obtain ⟨out, ps, h1, h2, h3⟩ := C175_streams_partial hy hw ha hok h
  refine ⟨out, ps, h1, h2, ?_⟩
  rw [h3]
  revert hne
  cases v <;> cases a <;> cases v' <;> cases a' <;> simp

theorem saveAVC_ts (x : Mixer) (p : Packet) : (x.saveAVCHeader p).2.1.ts = x.ts := (saveHeader_parts { x with types := x.types.isVideo } p).2.2.2.2.2.2.1
theorem saveAAC_ts (x : Mixer) (p : Packet) : (x.saveAACHeader p).2.1.ts = x.ts := (saveHeader_parts { x with types := x.types.isAudio } p).2.2.2.2.2.2.1

theorem Sent.saved {y x : Mixer} (h : Sent y x) (p : Packet) : Sent y (x.saveAVCHeader p).2.1 := .silent (.saveAVC p) h (saveAVC_ts x p)
theorem reach_saveAAC {x : Mixer} (h : MixReach x) (p : Packet) : MixReach (x.saveAACHeader p).2.1 := MixReach.op h (.saveAAC p)
theorem announced_header {x : Mixer} {v a : Bool} (h : Announced x v a) : Announced x.setTsHeader.2 v a := .other .header h (by simp)

/-- A stream that begins with sound: the picture comes after the first tables. -/
def soundFirst : Mixer := ((Mixer.new Sink.mem).saveAACHeader aacCfg).2.1

theorem reach_soundFirst : MixReach soundFirst := reach_saveAAC ⟨_, .new Sink.mem⟩ aacCfg
theorem works_soundFirst : soundFirst.ts.Reliable := by rw [soundFirst, saveAAC_ts]; exact fun _ => rfl
theorem announced_soundFirst : Announced soundFirst false true := .aac aacCfg (.new Sink.mem)

/-- Tables, a sequence header for the picture, and tables again. -/
theorem sent_soundFirst : soundFirst.setTsHeader.1 = .ok () ∧ Sent soundFirst.setTsHeader.2 (soundFirst.setTsHeader.2.saveAVCHeader avcCfg).2.1.setTsHeader.2 ∧
    Announced (soundFirst.setTsHeader.2.saveAVCHeader avcCfg).2.1.setTsHeader.2 true true :=
  ⟨by decide +kernel, .tables (Sent.saved .start avcCfg) (by decide +kernel), announced_header (.avc avcCfg (announced_header announced_soundFirst))⟩

example : ∃ out ps, (soundFirst.setTsHeader.2.saveAVCHeader avcCfg).2.1.setTsHeader.2.ts.out = soundFirst.ts.out ++ out ∧ parseStream out = some ps ∧
    streamsOf (follow 0x1001 ps) = some [(0x0f, 0x101)] :=
  C175_streams_partial reach_soundFirst works_soundFirst announced_soundFirst sent_soundFirst.1 sent_soundFirst.2.1

example : ∃ out ps, (soundFirst.setTsHeader.2.saveAVCHeader avcCfg).2.1.setTsHeader.2.ts.out = soundFirst.ts.out ++ out ∧ parseStream out = some ps ∧
    streamsOf (follow 0x1001 ps) ≠ some [(0x1b, 0x100), (0x0f, 0x101)] :=
  C175_streams_refuted reach_soundFirst works_soundFirst announced_soundFirst sent_soundFirst.1 sent_soundFirst.2.1 sent_soundFirst.2.2 (by decide)

example : ∃ first more ps qs, soundFirst.setTsHeader.2.ts.out = soundFirst.ts.out ++ first ∧
    (soundFirst.setTsHeader.2.saveAVCHeader avcCfg).2.1.setTsHeader.2.ts.out = soundFirst.ts.out ++ first ++ more ∧ parseStream first = some ps ∧
    parseStream (first ++ more) = some (ps ++ qs) ∧ ∀ pid, pid = 0x11 ∨ pid = 0x1001 → follow pid ps ≠ none ∧ follow pid (ps ++ qs) = follow pid ps :=
  C175_tables_refuted reach_soundFirst works_soundFirst sent_soundFirst.1 sent_soundFirst.2.1

end Verif.Props
