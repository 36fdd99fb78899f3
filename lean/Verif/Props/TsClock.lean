import Verif.Spec.TsClock
import Verif.Props.TsStream
/-!
# Property C172: the clock of the program
-/
namespace Verif.Props
open Verif Verif.Ts Verif.Spec.Ts Verif.Spec.Es

theorem clock_append (a b : List TsPacket) : clock (a ++ b) = clock a ++ clock b := by simp [clock, List.filterMap_append]

theorem clock_none (l : List TsPacket) (h : ∀ t ∈ l, pcrOf t = none) : clock l = [] := by
  induction l with
  | nil => rfl
  | cons t l ih => simp only [clock, List.filterMap_cons, h t (by simp), Option.map_none]; exact ih fun t' h' => h t' (by simp [h'])

/-- The clock references of one PES packet. -/
theorem packets_clock {m : Muxer} (hm : Reach m) {p : Packet} {v key : Bool} (hk : Kind p v key) (dts pts : Int) (hf : Fits v key p pts dts) :
    clock (packets v key p.media pts dts (ccOf v m)) = if key then [(0x100, (dts % 2 ^ 33).toNat, 0)] else [] := by
  obtain ⟨g1, -, -⟩ := packets_pcr hm hk dts pts hf
  obtain ⟨a, b, hh⟩ := hm
  have hmx := muxed (Hist.good hh) hk pts dts hf
  have hok : (Ts.mux p dts pts ⟨m, Sink.mem⟩).1 = .ok () := (hmx Sink.mem (fun _ => rfl)).choose_spec.1
  obtain ⟨t, ts, h1, h2, h3, h4⟩ := C53_pcr ⟨a, b, hh⟩ hk dts pts Sink.mem hok
  have he : packets v key p.media pts dts (ccOf v m) = t :: ts := by
    obtain ⟨o1, -, k2, k3⟩ := h1 Sink.mem (fun _ => rfl)
    obtain ⟨o2, -, l2, l3⟩ := hmx Sink.mem (fun _ => rfl)
    rw [k2] at l2
    have := List.append_cancel_left l2
    subst this
    rw [k3] at l3
    exact (Option.some.inj l3).symm
  rw [he] at g1 ⊢
  have hc : clock (t :: ts) = clock [t] ++ clock ts := clock_append [t] ts
  rw [hc, clock_none ts h2, List.append_nil]
  cases key with
  | false => exact clock_none [t] (by simpa using h4 rfl)
  | true =>
    have hv : v = true := (show ∀ k, Kind p v k → k = true → v = true from fun k hk e => by
      cases hk with
      | video => rfl
      | audio => cases e) true hk rfl
    subst hv
    obtain ⟨a, e1, e2⟩ := h3 rfl
    have hp : pcrOf t = some ((dts % 2 ^ 33).toNat, 0) := by simp only [pcrOf, e1, e2]
    have hi : t.pid = 0x100 := g1 t (by simp)
    simp [clock, hp, hi]

/-- The tables have no clock references. -/
theorem header_clock {x : Mixer} (h : MixReach x) (hw : x.ts.Reliable) (hok : x.setTsHeader.1 = .ok ()) :
    x.setTsHeader.2.ts.Reliable ∧ ∃ out ps, x.setTsHeader.2.ts.out = x.ts.out ++ out ∧ parseStream out = some ps ∧ clock ps = [] := by
  obtain ⟨hs, hx⟩ := h
  obtain ⟨i, j, hh⟩ := (MixHist.inv hx).muxer
  have hg := Hist.good hh
  have hd : x.metadata.length ≤ 163 := by
    by_cases hd : x.metadata.length ≤ 163
    · exact hd
    · rw [header_panic hg (by omega)] at hok; simp at hok
  obtain ⟨m', h1, -, -⟩ := header_ok hg hd hw
  have hl := progInfo_length x.types.toSlice
  have hlen := pmtSec_length x.types.toSlice
  have hsh := pmt_short x.types
  have hls : (sdtSec x.metadata).length = 16 + x.metadata.length := by simp [sdtSec]; omega
  have p1 := parse_tabPacket 0x40 0x11 0 (sdtSec x.metadata) (by omega) (by decide) (by decide)
  have p2 := parse_tabPacket 0x40 0x00 (tabCc x.muxer.patCc) patHeader (by decide) (tabCc_lt _) (by decide)
  have p3 := parse_tabPacket 0x50 0x01 (tabCc x.muxer.pmtCc) (pmtSec x.types.toSlice) (by omega) (tabCc_lt _) (by decide)
  obtain ⟨t1, q1, c1⟩ : ∃ t, parsePacket (tabPacket 0x40 0x11 0 (sdtSec x.metadata)) = some t ∧ pcrOf t = none := ⟨_, p1, rfl⟩
  obtain ⟨t2, q2, c2⟩ : ∃ t, parsePacket (tabPacket 0x40 0x00 (tabCc x.muxer.patCc) patHeader) = some t ∧ pcrOf t = none := ⟨_, p2, rfl⟩
  obtain ⟨t3, q3, c3⟩ : ∃ t, parsePacket (tabPacket 0x50 0x01 (tabCc x.muxer.pmtCc) (pmtSec x.types.toSlice)) = some t ∧ pcrOf t = none := ⟨_, p3, rfl⟩
  have hpp := parseStream_flatten [(tabPacket 0x40 0x11 0 (sdtSec x.metadata), t1),
      (tabPacket 0x40 0x00 (tabCc x.muxer.patCc) patHeader, t2),
      (tabPacket 0x50 0x01 (tabCc x.muxer.pmtCc) (pmtSec x.types.toSlice), t3)] (by
    intro t ht
    simp only [List.mem_cons, List.not_mem_nil, or_false] at ht
    rcases ht with rfl | rfl | rfl
    · exact ⟨tabPacket_len (by omega), q1⟩
    · exact ⟨tabPacket_len (by decide), q2⟩
    · exact ⟨tabPacket_len (by omega), q3⟩)
  refine ⟨by rw [h1]; exact hw, tabPacket 0x40 0x11 0 (sdtSec x.metadata) ++ (tabPacket 0x40 0x00 (tabCc x.muxer.patCc) patHeader ++
    tabPacket 0x50 0x01 (tabCc x.muxer.pmtCc) (pmtSec x.types.toSlice)), [t1, t2, t3], by rw [h1]; simp only [List.append_assoc], ?_, ?_⟩
  · simpa using hpp
  · exact clock_none _ (by simp [c1, c2, c3])

theorem update_video_dts (x : Mixer) (p : Packet) (ht : p.type = 0) (a b : UInt32) : (x.update p a b).2.dts = ((90 * a.toNat % 2 ^ 32 : Nat) : Int) := by
  unfold Mixer.update
  simp only [PktVideo, ht, if_true, ticks]
  rw [UInt32.toNat_mul, Nat.mul_comm]
  rfl

/-- What is known in a session. -/
structure ClockInv (y x : Mixer) (ks : List Nat) : Prop where
  reach : MixReach x
  works : x.ts.Reliable
  out : ∃ out ps, x.ts.out = y.ts.out ++ out ∧ parseStream out = some ps ∧ clock ps = ks.map fun k => (0x100, k, 0)

theorem Broadcast.frame {y x : Mixer} {ks : List Nat} (ih : ClockInv y x ks) (p : Packet) (a b : UInt32) (hok : ((x.update p a b).2.mux p).1 = .ok ()) :
    ∃ v key, Kind (parsed (x.update p a b).2 p) v key ∧
      ClockInv y ((x.update p a b).2.mux p).2.1 (ks ++ if key then [((x.update p a b).2.dts % 2 ^ 33).toNat] else []) := by
  have hy : MixReach (x.update p a b).2 := MixReach.op ih.reach (.update p a b)
  have hw : (x.update p a b).2.ts.Reliable := by rw [update_ts]; exact ih.works
  obtain ⟨v, key, hk, hf, out, h1, h2⟩ := mixer_muxed hy p hw hok
  obtain ⟨o, ps, h3, h4, h5⟩ := ih.out
  refine ⟨v, key, hk, MixReach.op hy (.mux p), mux_works hy p hw hok, o ++ out, _, ?_, parseStream_append h4 h2, ?_⟩
  · rw [h1, update_ts, h3, List.append_assoc]
  · obtain ⟨hs, hy⟩ := hy
    rw [clock_append, h5, packets_clock (MixHist.inv hy).muxer hk _ _ hf]
    cases key <;> simp

theorem Broadcast.inv {y x : Mixer} {ks : List Nat} (h : Broadcast y x ks) (hy : MixReach y) (hw : y.ts.Reliable) : ClockInv y x ks := by
  induction h with
  | start => exact ⟨hy, hw, [], [], by simp, rfl, rfl⟩
  | @silent x ks o _ hts ih => exact ⟨MixReach.op ih.reach o, by rw [hts]; exact ih.works, by rw [hts]; exact ih.out⟩
  | @tables x ks _ hok ih =>
    obtain ⟨h1, out, ps, h2, h3, h4⟩ := header_clock ih.reach ih.works hok
    obtain ⟨o, qs, h5, h6, h7⟩ := ih.out
    exact ⟨MixReach.op ih.reach .header, h1, o ++ out, _, by rw [h2, h5, List.append_assoc], parseStream_append h6 h3, by
      rw [clock_append, h4, h7, List.append_nil]⟩
  | @key x ks p vh a b _ ht hv hkey hok ih =>
    obtain ⟨v, key, hk, hi⟩ := Broadcast.frame ih p a b hok
    have : key = true := by
      cases hk with
      | video vh' _ hv' =>
        have : p.asVideo = .ok vh' := hv'
        rw [hv] at this
        cases this
        exact hkey
      | audio ht' => exact absurd (show p.type = 1 from ht') (by rw [ht]; decide)
    subst this
    rw [update_video_dts x p ht] at hi
    have e : ((((90 * a.toNat % 2 ^ 32 : Nat) : Int)) % 2 ^ 33).toNat = 90 * a.toNat % 2 ^ 32 := by omega
    rw [e] at hi
    simpa using hi
  | @other x ks p a b _ hno hok ih =>
    obtain ⟨v, key, hk, hi⟩ := Broadcast.frame ih p a b hok
    have : key = false := by
      cases hk with
      | video vh' ht' hv' =>
        cases hb : vh'.isKeyFrame with
        | false => rfl
        | true => exact absurd ⟨vh', ht', hv', hb⟩ hno
      | audio _ => rfl
    subst this
    simpa using hi

/-- C172 (partial): whatever is sent from a reachable mixer to a working writer, the clock references in the stream are exactly the
decoding times of the key frames, in order, all on PID 0x100: the clock is right wherever it is sent.  Missing: that it is sent often
enough, see below. -/
theorem C172_clock_partial {y x : Mixer} (hy : MixReach y) (hw : y.ts.Reliable) {ks : List Nat} (h : Broadcast y x ks) :
    ∃ out ps, x.ts.out = y.ts.out ++ out ∧ parseStream out = some ps ∧ clock ps = ks.map fun k => (0x100, k, 0) :=
  (Broadcast.inv h hy hw).out

/-- C172 fails whenever two key frames that follow each other are more than 100 ms apart: the clock references next to each other in
the stream are as far apart, however many frames are between them. -/
theorem C172_interval_refuted {y x : Mixer} (hy : MixReach y) (hw : y.ts.Reliable) {ks ls : List Nat} {k l : Nat} (h : Broadcast y x (ks ++ k :: l :: ls))
    (hkl : k + 9000 < l) :
    ∃ out ps before behind, x.ts.out = y.ts.out ++ out ∧ parseStream out = some ps ∧
      clock ps = before ++ (0x100, k, 0) :: (0x100, l, 0) :: behind ∧ 9000 < l - k := by
  obtain ⟨out, ps, h1, h2, h3⟩ := C172_clock_partial hy hw h
  exact ⟨out, ps, _, _, h1, h2, by rw [h3, List.map_append]; rfl, by omega⟩

/-- C172 fails for every session without key frames, in particular for every one with sound alone: there is no clock at all. -/
theorem C172_no_clock_refuted {y x : Mixer} (hy : MixReach y) (hw : y.ts.Reliable) (h : Broadcast y x []) :
    ∃ out ps, x.ts.out = y.ts.out ++ out ∧ parseStream out = some ps ∧ ∀ t ∈ ps, pcrOf t = none := by
  obtain ⟨out, ps, h1, h2, h3⟩ := C172_clock_partial hy hw h
  refine ⟨out, ps, h1, h2, fun t ht => ?_⟩
  cases hp : pcrOf t with
  | none => rfl
  | some c =>
    have : (t.pid, c.1, c.2) ∈ clock ps := List.mem_filterMap.2 ⟨t, ht, by simp [hp]⟩
    rw [h3] at this
    simp at this

/-- A key frame with one NAL unit of 200 bytes. -/
def bigKey : Packet := hdrPacket 0 ⟨true, false, false, false, true, 7, 0⟩ ⟨0, 0, false, false, false⟩ ([0, 0, 0, 200] ++ List.replicate 200 0x65)
/-- An inter frame. -/
def interFrame2 : Packet := hdrPacket 0 ⟨false, true, false, false, true, 7, 0⟩ ⟨0, 0, false, false, false⟩ [0, 0, 0, 3, 0x41, 5, 6]

/-- Two key frames with two seconds between them, and an inter frame after one. -/
theorem broadcast_mixer2 : ∃ x, Broadcast mixer2 x ([] ++ 3600 :: 183600 :: []) := by
  have h2 := (Broadcast.start (y := mixer2)).key bigKey _ 40 0 rfl rfl rfl (by decide +kernel)
  have h3 := h2.other interFrame2 1040 0 (by rintro ⟨vh, -, h, hk⟩; cases h; cases hk) (by decide +kernel)
  exact ⟨_, h3.key bigKey _ 2040 0 rfl rfl rfl (by decide +kernel)⟩

example : ∃ (x : Mixer) (out : Bytes) (ps : List TsPacket) (before behind : List (Nat × Nat × Nat)), x.ts.out = mixer2.ts.out ++ out ∧ parseStream out = some ps ∧
    clock ps = before ++ (0x100, 3600, 0) :: (0x100, 183600, 0) :: behind ∧ 9000 < 183600 - 3600 := by
  obtain ⟨x, h⟩ := broadcast_mixer2
  exact ⟨x, C172_interval_refuted reach_mixer2 works_mixer2 h (by decide)⟩

end Verif.Props
