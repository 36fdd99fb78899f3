import Verif.Spec.TsTune
import Verif.Props.TsStream
import Verif.Props.TsClock
/-!
# Property C173: a receiver can tune in at any time
-/
namespace Verif.Props
open Verif Verif.Ts Verif.Spec.Ts Verif.Spec.Es

theorem parseN_fuel : ∀ (k k' : Nat) (b : Bytes) (ps : List TsPacket), parseN k b = some ps → b.length ≤ k' → parseN k' b = some ps
  | k, k', [], ps, h, _ => by
    have e : ∀ k, parseN k [] = some [] := fun k => by cases k <;> rfl
    rw [e] at h ⊢; exact h
  | 0, k', c :: b, ps, h, _ => by simp [parseN] at h
  | k + 1, 0, c :: b, ps, h, hl => by simp at hl
  | k + 1, k' + 1, c :: b, ps, h, hl => by
    simp only [parseN] at h ⊢
    cases h1 : parsePacket ((c :: b).take 188) with
    | none => rw [h1] at h; simp at h
    | some p =>
      cases h2 : parseN k ((c :: b).drop 188) with
      | none => rw [h1, h2] at h; simp at h
      | some qs =>
        rw [h1, h2] at h
        rw [parseN_fuel k k' _ _ h2 (by simp only [List.length_drop, List.length_cons] at hl ⊢; omega)]
        exact h

theorem parseStream_drop : ∀ (n : Nat) (b : Bytes) (ps : List TsPacket), parseStream b = some ps → parseStream (b.drop (188 * n)) = some (ps.drop n)
  | 0, b, ps, h => by simpa using h
  | n + 1, [], ps, h => by
    have : ps = [] := by simpa [parseStream, parseN] using h.symm
    subst this
    simp [parseStream, parseN]
  | n + 1, c :: b, ps, h => by
    unfold parseStream at h
    simp only [List.length_cons, parseN] at h
    cases h1 : parsePacket ((c :: b).take 188) with
    | none => rw [h1] at h; simp at h
    | some p =>
      cases h2 : parseN b.length ((c :: b).drop 188) with
      | none => rw [h1, h2] at h; simp at h
      | some qs =>
        rw [h1, h2] at h
        simp only [Option.some.injEq] at h
        subst h
        have h3 : parseStream ((c :: b).drop 188) = some qs := parseN_fuel _ _ _ _ h2 (Nat.le_refl _)
        have := parseStream_drop n _ _ h3
        rw [List.drop_drop] at this
        rw [show 188 * (n + 1) = 188 + 188 * n by omega]
        exact this

theorem cutUnits_late (a b : List TsPacket) : (cutUnits (a ++ b)).2.drop (a.countP (·.start)) = (cutUnits b).2 := by
  induction a with
  | nil => rfl
  | cons t a ih =>
    simp only [List.cons_append, cutUnits, List.countP_cons]
    split
    · simpa using ih
    · simpa using ih

theorem parsePesAll_drop : ∀ (k : Nat) (us : List Bytes) (l : List Spec.Ts.Pes), parsePesAll us = some l → parsePesAll (us.drop k) = some (l.drop k)
  | 0, us, l, h => by simpa using h
  | k + 1, [], l, h => by
    have : l = [] := by simpa [parsePesAll] using h.symm
    subst this; rfl
  | k + 1, u :: us, l, h => by
    simp only [parsePesAll] at h
    cases h1 : parsePes u with
    | none => rw [h1] at h; simp at h
    | some p =>
      cases h2 : parsePesAll us with
      | none => rw [h1, h2] at h; simp at h
      | some ps =>
        rw [h1, h2] at h
        simp only [Option.some.injEq] at h
        subst h
        exact parsePesAll_drop k us ps h2

/-- A late receiver gets what a receiver from the beginning gets, without what began before. -/
theorem receive_late (pid n : Nat) (out : Bytes) (l : List Spec.Ts.Pes) (h : receive pid out = some l) :
    receiveLate pid n out = some (l.drop (begun pid n out)) := by
  unfold receive at h
  cases hs : parseStream out with
  | none => rw [hs] at h; simp at h
  | some ps =>
    rw [hs] at h
    simp only at h
    cases hu : units pid ps with
    | none => rw [hu] at h; simp at h
    | some us =>
      rw [hu] at h
      simp only at h
      have e : (cutUnits (ps.filter (·.pid == pid))).2 = us := by
        unfold units at hu
        cases hf : ps.filter (·.pid == pid) with
        | nil => rw [hf] at hu; simpa [cutUnits] using hu
        | cons t ts =>
          rw [hf] at hu
          by_cases ht : t.start = true
          · simpa [ht] using hu
          · simp [ht] at hu
      simp only [receiveLate, begun, parseStream_drop n out ps hs, hs]
      have k := cutUnits_late ((ps.take n).filter (·.pid == pid)) ((ps.drop n).filter (·.pid == pid))
      rw [← List.filter_append, List.take_append_drop, e, List.countP_filter] at k
      rw [← k]
      have hc : (fun t : TsPacket => t.start && (t.pid == pid)) = fun t => t.pid == pid && t.start := by funext t; exact Bool.and_comm _ _
      rw [hc]
      exact parsePesAll_drop _ _ _ h

/-- C173 (partial): whatever is sent from a reachable mixer, a receiver that begins behind any number of packets gets every frame that
begins after that, video and audio, in order and with its times, and nothing else.  Missing: key frames with short PES packets, which
no receiver gets (`C109_small_key_frame_refuted`). -/
theorem C173_tune_in_partial {y x : Mixer} (hy : MixReach y) (hw : y.ts.Reliable) {vs : List VideoUnit} {as : List AudioUnit} (h : Live y x vs as) :
    ∃ out, x.ts.out = y.ts.out ++ out ∧ ∀ n, ∃ V A, receiveLate 0x100 n out = some V ∧ receiveLate 0x101 n out = some A ∧
      V.map (fun p => (⟨p.pts, p.dts.getD p.pts, p.data⟩ : VideoUnit)) = vs.drop (begun 0x100 n out) ∧
      A.map (fun p => readAdts p.data) = (as.drop (begun 0x101 n out)).map (fun u => some (u.adts, u.frame)) ∧
      ∀ (i : Nat) p u, A[i]? = some p → (as.drop (begun 0x101 n out))[i]? = some u →
        (p.pts : Int) - 90 * u.ms.toNat % 2 ^ 32 ≤ 900 ∧ 90 * u.ms.toNat % 2 ^ 32 - (p.pts : Int) ≤ 900 := by
  obtain ⟨out, h1, -, ⟨V, v1, v2, -⟩, ⟨A, a1, a2, -, a4⟩⟩ := C109_stream_partial hy hw h
  refine ⟨out, h1, fun n => ⟨_, _, receive_late _ n _ _ v1, receive_late _ n _ _ a1, ?_, ?_, ?_⟩⟩
  · rw [← v2, List.map_drop]
  · rw [List.map_drop, a2, List.map_drop]
  · intro i p u hp hu
    rw [List.getElem?_drop] at hp hu
    exact a4 _ p u hp hu

theorem Frames.inv {y x : Mixer} (h : Frames y x) (hy : MixReach y) (hw : y.ts.Reliable) :
    MixReach x ∧ x.ts.Reliable ∧ ∃ out ps, x.ts.out = y.ts.out ++ out ∧ parseStream out = some ps ∧ ∀ t ∈ ps, t.pid = 0x100 ∨ t.pid = 0x101 := by
  induction h with
  | start => exact ⟨hy, hw, [], [], by simp, rfl, by simp⟩
  | @silent x o _ hts ih => exact ⟨MixReach.op ih.1 o, by rw [hts]; exact ih.2.1, by rw [hts]; exact ih.2.2⟩
  | @mux x p _ hok ih =>
    obtain ⟨i1, i2, o, ps, i3, i4, i5⟩ := ih
    obtain ⟨v, key, hk, hf, out, h1, h2⟩ := mixer_muxed i1 p i2 hok
    refine ⟨MixReach.op i1 (.mux p), mux_works i1 p i2 hok, o ++ out, _, by rw [h1, i3, List.append_assoc], parseStream_append i4 h2, ?_⟩
    intro t ht
    rcases List.mem_append.mp ht with ht | ht
    · exact i5 t ht
    · obtain ⟨hs, hx⟩ := i1
      have := (packets_pcr (MixHist.inv hx).muxer hk _ _ hf).1 t ht
      cases v
      · exact .inr this
      · exact .inl this

/-- C173 fails unless the caller repeats the tables: however many frames are muxed, a receiver that begins after the tables never learns
what the program consists of. -/
theorem C173_tables_refuted {y x : Mixer} (hy : MixReach y) (hw : y.ts.Reliable) (h : Frames y x) :
    ∃ out, x.ts.out = y.ts.out ++ out ∧ ∀ n, tune (out.drop (188 * n)) = none := by
  obtain ⟨-, -, out, ps, h1, h2, h3⟩ := Frames.inv h hy hw
  refine ⟨out, h1, fun n => ?_⟩
  have e : (ps.drop n).find? (·.pid == 0) = none := by
    rw [List.find?_eq_none]
    intro t ht
    rcases h3 t (List.mem_of_mem_drop ht) with e | e <;> simp [e]
  simp only [tune, parseStream_drop n out ps h2, e]

/-- What `SetTsHeader` writes, packet by packet. -/
theorem header_tables {x : Mixer} (h : MixReach x) {v a : Bool} (ha : Announced x v a) (hw : x.ts.Reliable) (hok : x.setTsHeader.1 = .ok ()) :
    ∃ out t1 t2 t3 e2 b2 e3 b3, x.setTsHeader.2.ts.out = x.ts.out ++ out ∧ parseStream out = some [t1, t2, t3] ∧ t1.pid = 0x11 ∧ t2.pid = 0 ∧
      t3.pid = 0x1001 ∧ parseSection t2.payload = some ⟨0x00, e2, b2⟩ ∧ parsePrograms b2 = some [(1, 0x1001)] ∧
      parseSection t3.payload = some ⟨0x02, e3, b3⟩ ∧ (parsePmt b3).map (·.2) = some (announcedStreams v a) := by
  obtain ⟨hs, hx⟩ := h
  obtain ⟨i, j, hh⟩ := (MixHist.inv hx).muxer
  have hg := Hist.good hh
  have hd : x.metadata.length ≤ 163 := by
    by_cases hd : x.metadata.length ≤ 163
    · exact hd
    · rw [header_panic hg (by omega)] at hok; simp at hok
  obtain ⟨m', h1, -, -⟩ := header_ok hg hd hw
  have hl := progInfo_length x.types.toSlice
  have hlen := pmtSec_length x.types.toSlice
  have hsh := pmt_short x.types
  have hls : (sdtSec x.metadata).length = 16 + x.metadata.length := by simp [sdtSec]; omega
  have p1 := parse_tabPacket 0x40 0x11 0 (sdtSec x.metadata) (by omega) (by decide) (by decide)
  have p2 := parse_tabPacket 0x40 0x00 (tabCc x.muxer.patCc) patHeader (by decide) (tabCc_lt _) (by decide)
  have p3 := parse_tabPacket 0x50 0x01 (tabCc x.muxer.pmtCc) (pmtSec x.types.toSlice) (by omega) (tabCc_lt _) (by decide)
  obtain ⟨o, g1, -, g2⟩ := C42_pat hh
  rw [pat_ok _ hg.pat] at g1
  simp only [Res.ok.injEq] at g1
  subst g1
  have g3 := pmt_packet hg x.types.toSlice (pmt_short x.types)
  obtain ⟨t1, q1, c1⟩ : ∃ t, parsePacket (tabPacket 0x40 0x11 0 (sdtSec x.metadata)) = some t ∧ t.pid = 0x11 := ⟨_, p1, rfl⟩
  obtain ⟨t2, q2⟩ : ∃ t, parsePacket (tabPacket 0x40 0x00 (tabCc x.muxer.patCc) patHeader) = some t := ⟨_, p2⟩
  obtain ⟨t3, q3⟩ : ∃ t, parsePacket (tabPacket 0x50 0x01 (tabCc x.muxer.pmtCc) (pmtSec x.types.toSlice)) = some t := ⟨_, p3⟩
  obtain ⟨c2, e2, b2, s2, r2⟩ := pat_section q2 g2
  obtain ⟨c3, e3, b3, s3, r3⟩ := pmt_section q3 g3
  have hpp := parseStream_flatten [(tabPacket 0x40 0x11 0 (sdtSec x.metadata), t1),
      (tabPacket 0x40 0x00 (tabCc x.muxer.patCc) patHeader, t2),
      (tabPacket 0x50 0x01 (tabCc x.muxer.pmtCc) (pmtSec x.types.toSlice), t3)] (by
    intro t ht
    simp only [List.mem_cons, List.not_mem_nil, or_false] at ht
    rcases ht with rfl | rfl | rfl
    · exact ⟨tabPacket_len (by omega), q1⟩
    · exact ⟨tabPacket_len (by decide), q2⟩
    · exact ⟨tabPacket_len (by omega), q3⟩)
  simp only [List.map_cons, List.map_nil, List.flatten_cons, List.flatten_nil, List.append_nil] at hpp
  refine ⟨tabPacket 0x40 0x11 0 (sdtSec x.metadata) ++ (tabPacket 0x40 0x00 (tabCc x.muxer.patCc) patHeader ++
    tabPacket 0x50 0x01 (tabCc x.muxer.pmtCc) (pmtSec x.types.toSlice)), t1, t2, t3, e2, b2, e3, b3, by rw [h1]; simp only [List.append_assoc], hpp, c1, c2, c3, s2, r2, s3, ?_⟩
  rw [r3, Option.map_some, announced_types ha]
  cases v <;> cases a <;> rfl

/-- C173 (partial): a receiver that begins with any packet before the tables, however many frames lie between, learns from them exactly
the streams that are announced (H.264 on PID 0x100, AAC on PID 0x101), whatever follows.  Missing: that there are tables at all, which is left to the
caller (`C173_tables_refuted`). -/
theorem C173_next_tables_partial {y x : Mixer} (hy : MixReach y) (hw : y.ts.Reliable) (h : Frames y x) {v a : Bool} (ha : Announced x v a)
    (hok : x.setTsHeader.1 = .ok ()) :
    ∃ frames tables, x.ts.out = y.ts.out ++ frames ∧ x.setTsHeader.2.ts.out = x.ts.out ++ tables ∧ ∀ n more qs, parseStream more = some qs →
      tune (frames.drop (188 * n) ++ (tables ++ more)) = some ((if v then [(0x1b, 0x100)] else []) ++ (if a then [(0x0f, 0x101)] else [])) := by
  obtain ⟨i1, i2, o, ps, i3, i4, i5⟩ := Frames.inv h hy hw
  obtain ⟨out, t1, t2, t3, e2, b2, e3, b3, h1, hpp, c1, c2, c3, s2, r2, s3, r3⟩ := header_tables i1 ha i2 hok
  refine ⟨o, out, i3, h1, fun n more qs hm => ?_⟩
  unfold tune
  rw [parseStream_append (parseStream_drop n o ps i4) (parseStream_append hpp hm)]
  have f : ∀ q, q = 0 ∨ q = 0x1001 → (ps.drop n).find? (·.pid == q) = none := by
    intro q hq
    rw [List.find?_eq_none]
    intro t ht
    rcases i5 t (List.mem_of_mem_drop ht) with e | e <;> rcases hq with rfl | rfl <;> simp [e]
  simp only [List.find?_append, f 0 (.inl rfl), f 0x1001 (.inr rfl), Option.none_or, List.find?_cons, List.cons_append, c1, c2, c3, s2, r2, s3, r3,
    show ((17 : Nat) == 0) = false from rfl, show ((0 : Nat) == 0) = true from rfl, show ((17 : Nat) == 4097) = false from rfl,
    show ((0 : Nat) == 4097) = false from rfl, show ((4097 : Nat) == 4097) = true from rfl]
  cases v <;> cases a <;> rfl

theorem reach_header {x : Mixer} (h : MixReach x) : MixReach x.setTsHeader.2 := MixReach.op h .header
theorem Frames.sent {y x : Mixer} (h : Frames y x) (p : Packet) (a b : UInt32) (hok : ((x.update p a b).2.mux p).1 = .ok ()) :
    Frames y ((x.update p a b).2.mux p).2.1 := .mux p (.silent (.update p a b) h (update_ts x p a b)) hok

/-- A session with a picture and an AAC frame, with the tables first. -/
example : ∃ (x : Mixer) (out : Bytes), x.ts.out = mixer2.setTsHeader.2.ts.out ++ out ∧ ∀ n, ∃ V A, receiveLate 0x100 n out = some V ∧ receiveLate 0x101 n out = some A ∧
    V.map (fun p => (⟨p.pts, p.dts.getD p.pts, p.data⟩ : VideoUnit)) =
      [⟨3600, 3600, [0, 0, 0, 1, 9, 0xf0, 0, 0, 0, 1, 0x41, 5, 6]⟩].drop (begun 0x100 n out) ∧ A.length = 1 - begun 0x101 n out := by
  obtain ⟨h1, -, x, h3⟩ := live_mixer2
  obtain ⟨w, -⟩ := header_stream reach_mixer2 works_mixer2 h1
  obtain ⟨out, k1, k2⟩ := C173_tune_in_partial (reach_header reach_mixer2) w h3
  refine ⟨x, out, k1, fun n => ?_⟩
  obtain ⟨V, A, k3, k4, k5, k6, -⟩ := k2 n
  refine ⟨V, A, k3, k4, k5, ?_⟩
  have := congrArg List.length k6
  simpa using this

/-- A session with a key frame, an inter frame and a key frame. -/
theorem frames_mixer2 : ∃ x, Frames mixer2 x ∧ x.ts.out.length = 188 * 5 := by
  have h2 := Frames.sent (Frames.start (y := mixer2)) bigKey 40 0 (by decide +kernel)
  have h3 := Frames.sent h2 interFrame2 80 0 (by decide +kernel)
  exact ⟨_, Frames.sent h3 bigKey 2040 0 (by decide +kernel), by decide +kernel⟩

example : ∃ (x : Mixer) (out : Bytes), x.ts.out = mixer2.ts.out ++ out ∧ x.ts.out.length = 188 * 5 ∧ ∀ n, tune (out.drop (188 * n)) = none := by
  obtain ⟨x, h, hl⟩ := frames_mixer2
  obtain ⟨out, h1, h2⟩ := C173_tables_refuted reach_mixer2 works_mixer2 h
  exact ⟨x, out, h1, hl, h2⟩

theorem announced_sent {x : Mixer} {v a : Bool} (h : Announced x v a) (p : Packet) (c b : UInt32) : Announced ((x.update p c b).2.mux p).2.1 v a :=
  .other (.mux p) (.other (.update p c b) h (by simp)) (by simp)

/-- A key frame, an inter frame and the tables. -/
example : ∃ (x : Mixer) (frames tables : Bytes), x.ts.out = mixer2.ts.out ++ frames ∧ x.ts.out.length = 188 * 3 ∧ x.setTsHeader.2.ts.out = x.ts.out ++ tables ∧
    ∀ n more qs, parseStream more = some qs → tune (frames.drop (188 * n) ++ (tables ++ more)) = some [(0x1b, 0x100), (0x0f, 0x101)] := by
  have h2 := Frames.sent (Frames.start (y := mixer2)) bigKey 40 0 (by decide +kernel)
  have h3 := Frames.sent h2 interFrame2 80 0 (by decide +kernel)
  have ha := announced_sent (announced_sent announced_mixer2 bigKey 40 0) interFrame2 80 0
  obtain ⟨f, t, k1, k2, k3⟩ := C173_next_tables_partial reach_mixer2 works_mixer2 h3 ha (by decide +kernel)
  exact ⟨_, f, t, k1, by decide +kernel, k2, k3⟩

end Verif.Props
