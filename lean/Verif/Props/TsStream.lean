import Verif.Spec.TsStream
import Verif.Props.TsMixerCc
/-!
# Property C109: a transport stream delivers exactly the frames that were sent
-/
namespace Verif.Props
open Verif Verif.Ts Verif.Spec.Ts Verif.Spec.Es

theorem parseN_mono (n k : Nat) (b : Bytes) (ps : List TsPacket) (h : parseN n b = some ps) : parseN (n + k) b = some ps := by
  induction n generalizing b ps with
  | zero =>
    cases b with
    | nil => cases k <;> exact h
    | cons x b => simp [parseN] at h
  | succ n ih =>
    cases b with
    | nil => rw [show n + 1 + k = (n + k) + 1 by omega]; exact h
    | cons x b =>
      rw [show n + 1 + k = (n + k) + 1 by omega]
      simp only [parseN] at h ⊢
      cases h1 : parsePacket (List.take 188 (x :: b)) with
      | none => rw [h1] at h; simp at h
      | some t =>
        cases h2 : parseN n (List.drop 188 (x :: b)) with
        | none => rw [h1, h2] at h; simp at h
        | some ts =>
          rw [h1, h2] at h
          rw [ih _ _ h2]
          exact h

theorem parsePacket_len {b : Bytes} {t : TsPacket} (h : parsePacket b = some t) : b.length = 188 := by
  unfold parsePacket at h
  split at h
  · split at h
    · rename_i hc; exact hc.2.1
    · simp at h
  · simp at h

theorem parseN_append (n k : Nat) (a b : Bytes) (ps qs : List TsPacket) (h : parseN n a = some ps) (h' : parseN k b = some qs) :
    parseN (n + k) (a ++ b) = some (ps ++ qs) := by
  induction n generalizing a ps with
  | zero =>
    cases a with
    | nil => simp only [parseN, Option.some.injEq] at h; subst h; simpa using h'
    | cons x b => simp [parseN] at h
  | succ n ih =>
    cases a with
    | nil =>
      simp only [parseN, Option.some.injEq] at h; subst h
      rw [Nat.add_comm]; simpa using parseN_mono k (n + 1) b qs h'
    | cons x a =>
      rw [show n + 1 + k = (n + k) + 1 by omega]
      simp only [parseN] at h
      simp only [List.cons_append, parseN]
      cases h1 : parsePacket (List.take 188 (x :: a)) with
      | none => rw [h1] at h; simp at h
      | some t =>
        cases h2 : parseN n (List.drop 188 (x :: a)) with
        | none => rw [h1, h2] at h; simp at h
        | some ts =>
          rw [h1, h2] at h
          simp only [Option.some.injEq] at h
          have hl := parsePacket_len h1
          rw [List.length_take] at hl
          rw [← List.cons_append, List.take_append_of_le_length (by omega), List.drop_append_of_le_length (by omega), h1, ih _ _ h2, ← h]
          rfl

theorem parseStream_append {a b : Bytes} {ps qs : List TsPacket} (h : parseStream a = some ps) (h' : parseStream b = some qs) :
    parseStream (a ++ b) = some (ps ++ qs) := by
  unfold parseStream at *
  rw [List.length_append]
  exact parseN_append _ _ _ _ _ _ h h'

theorem cutUnits_append (ps qs : List TsPacket) (h : ∀ t, qs.head? = some t → t.start = true) :
    cutUnits (ps ++ qs) = ((cutUnits ps).1, (cutUnits ps).2 ++ (cutUnits qs).2) := by
  have hq : (cutUnits qs).1 = [] := by
    cases qs with
    | nil => rfl
    | cons t ts => rw [cutUnits, if_pos (h t rfl)]
  induction ps with
  | nil =>
    show cutUnits qs = ([], [] ++ _)
    rw [← hq]; rfl
  | cons t ts ih =>
    simp only [List.cons_append, cutUnits, ih]
    split <;> simp

/-- Units of a PID in a stream followed by a stream that begins with a unit. -/
theorem units_append {pid : Nat} {ps qs : List TsPacket} {us : List Bytes} (h : units pid ps = some us)
    (hq : ∀ t, (qs.filter (·.pid == pid)).head? = some t → t.start = true) :
    units pid (ps ++ qs) = some (us ++ (cutUnits (qs.filter (·.pid == pid))).2) := by
  unfold units at h ⊢
  rw [List.filter_append]
  generalize ps.filter (·.pid == pid) = a at *
  generalize qs.filter (·.pid == pid) = b at *
  cases a with
  | nil =>
    simp only [Option.some.injEq] at h
    subst h
    cases b with
    | nil => rfl
    | cons t ts => simp only [List.nil_append]; rw [if_pos (hq t rfl)]
  | cons x xs =>
    have hx : x.start = true := by
      by_cases hx : x.start = true
      · exact hx
      · simp [hx] at h
    simp only [hx, if_true, Option.some.injEq] at h
    simp only [List.cons_append, hx, if_true, Option.some.injEq]
    rw [← List.cons_append, cutUnits_append _ _ hq, h]

theorem parsePesAll_append {us : List Bytes} {l : List Spec.Ts.Pes} (h : parsePesAll us = some l) (u : Bytes) (p : Spec.Ts.Pes) (hu : parsePes u = some p) :
    parsePesAll (us ++ [u]) = some (l ++ [p]) := by
  induction us generalizing l with
  | nil =>
    simp only [parsePesAll, Option.some.injEq] at h
    subst h
    simp [parsePesAll, hu]
  | cons x xs ih =>
    simp only [parsePesAll] at h
    simp only [List.cons_append, parsePesAll]
    cases h1 : parsePes x with
    | none => rw [h1] at h; simp at h
    | some a =>
      cases h2 : parsePesAll xs with
      | none => rw [h1, h2] at h; simp at h
      | some b =>
        rw [h1, h2] at h
        simp only [Option.some.injEq] at h
        rw [ih h2, ← h]
        rfl

/-- A packet list of one unit. -/
theorem cutUnits_one (ps : List TsPacket) (hne : ps ≠ []) (h : ∀ i t, ps[i]? = some t → (t.start = true ↔ i = 0)) :
    (cutUnits ps).2 = [payload ps] ∧ ∀ t, ps.head? = some t → t.start = true := by
  cases ps with
  | nil => exact absurd rfl hne
  | cons t ts =>
    have h0 : t.start = true := (h 0 t rfl).mpr rfl
    have hr : ∀ x ∈ ts, x.start = false := by
      intro x hx
      obtain ⟨i, hi⟩ := List.mem_iff_getElem?.mp hx
      have := h (i + 1) x (by simpa using hi)
      cases hs : x.start
      · rfl
      · have := this.mp hs; omega
    have hc : ∀ l : List TsPacket, (∀ x ∈ l, x.start = false) → cutUnits l = (payload l, []) := by
      intro l
      induction l with
      | nil => intro _; rfl
      | cons y ys ih =>
        intro hl
        rw [cutUnits, if_neg (by simp [hl y (by simp)]), ih fun x hx => hl x (by simp [hx])]
        rfl
    refine ⟨?_, fun x hx => by simp only [List.head?_cons, Option.some.injEq] at hx; rw [← hx]; exact h0⟩
    rw [cutUnits, if_pos h0, hc ts hr]
    rfl

/-- Sending one PES packet adds it to what is received on its PID, and nothing elsewhere. -/
theorem receive_carries {a b : Bytes} {pid : Nat} {pes : Spec.Ts.Pes} (hb : Carries b pid pes) (q : Nat) (l : List Spec.Ts.Pes) (ha : receive q a = some l) :
    receive q (a ++ b) = some (if q = pid then l ++ [pes] else l) := by
  obtain ⟨ps, h1, h2, h3, -, h5⟩ := hb
  unfold receive at ha ⊢
  cases hs : parseStream a with
  | none => rw [hs] at ha; simp at ha
  | some as =>
    rw [hs] at ha
    simp only at ha
    rw [parseStream_append hs h1]
    simp only
    cases hu : units q as with
    | none => rw [hu] at ha; simp at ha
    | some us =>
      rw [hu] at ha
      simp only at ha
      by_cases hq : q = pid
      · subst hq
        have hf : ps.filter (·.pid == q) = ps := filter_all _ _ fun t ht => by simp [h2 t ht]
        have hne : ps ≠ [] := by
          intro e; subst e
          simp [payload, parsePes] at h5
        obtain ⟨k1, k2⟩ := cutUnits_one ps hne h3
        rw [units_append hu (by rw [hf]; exact k2), hf, k1, if_pos rfl]
        exact parsePesAll_append ha _ _ h5
      · have hf : ps.filter (·.pid == q) = [] := filter_none _ _ fun t ht => by
          rw [h2 t ht]; simp only [beq_eq_false_iff_ne]; exact fun e => hq e.symm
        rw [units_append hu (by rw [hf]; simp), hf, if_neg hq]
        simpa [cutUnits] using ha

/-- Packets of other PIDs do not matter. -/
theorem receive_other {a b : Bytes} {ps : List TsPacket} (hb : parseStream b = some ps) (q : Nat) (hq : ∀ t ∈ ps, t.pid ≠ q) (l : List Spec.Ts.Pes)
    (ha : receive q a = some l) : receive q (a ++ b) = some l := by
  unfold receive at ha ⊢
  cases hs : parseStream a with
  | none => rw [hs] at ha; simp at ha
  | some as =>
    rw [hs] at ha
    simp only at ha
    rw [parseStream_append hs hb]
    simp only
    cases hu : units q as with
    | none => rw [hu] at ha; simp at ha
    | some us =>
      rw [hu] at ha
      simp only at ha
      have hf : ps.filter (·.pid == q) = [] := filter_none _ _ fun t ht => by simp [hq t ht]
      rw [units_append hu (by rw [hf]; simp), hf]
      simpa [cutUnits] using ha

/-- What `SetTsHeader` writes: three packets on other PIDs. -/
theorem header_stream {x : Mixer} (h : MixReach x) (hw : x.ts.Reliable) (hok : x.setTsHeader.1 = .ok ()) :
    x.setTsHeader.2.ts.Reliable ∧ ∃ out ps, x.setTsHeader.2.ts.out = x.ts.out ++ out ∧ parseStream out = some ps ∧
      ∀ t ∈ ps, t.pid ≠ 0x100 ∧ t.pid ≠ 0x101 := by
  obtain ⟨hs, hx⟩ := h
  obtain ⟨i, j, hh⟩ := (MixHist.inv hx).muxer
  have hg := Hist.good hh
  have hd : x.metadata.length ≤ 163 := by
    by_cases hd : x.metadata.length ≤ 163
    · exact hd
    · rw [header_panic hg (by omega)] at hok; simp at hok
  obtain ⟨m', h1, -, -⟩ := header_ok hg hd hw
  have hl := progInfo_length x.types.toSlice
  have hlen := pmtSec_length x.types.toSlice
  have hsh := pmt_short x.types
  have hls : (sdtSec x.metadata).length = 16 + x.metadata.length := by simp [sdtSec]; omega
  have p1 := parse_tabPacket 0x40 0x11 0 (sdtSec x.metadata) (by omega) (by decide) (by decide)
  have p2 := parse_tabPacket 0x40 0x00 (tabCc x.muxer.patCc) patHeader (by decide) (tabCc_lt _) (by decide)
  have p3 := parse_tabPacket 0x50 0x01 (tabCc x.muxer.pmtCc) (pmtSec x.types.toSlice) (by omega) (tabCc_lt _) (by decide)
  obtain ⟨t1, q1, c1⟩ : ∃ t, parsePacket (tabPacket 0x40 0x11 0 (sdtSec x.metadata)) = some t ∧ t.pid = 0x11 := ⟨_, p1, rfl⟩
  obtain ⟨t2, q2, c2⟩ : ∃ t, parsePacket (tabPacket 0x40 0x00 (tabCc x.muxer.patCc) patHeader) = some t ∧ t.pid = 0 := ⟨_, p2, rfl⟩
  obtain ⟨t3, q3, c3⟩ : ∃ t, parsePacket (tabPacket 0x50 0x01 (tabCc x.muxer.pmtCc) (pmtSec x.types.toSlice)) = some t ∧ t.pid = 0x1001 := ⟨_, p3, rfl⟩
  have hpp := parseStream_flatten [(tabPacket 0x40 0x11 0 (sdtSec x.metadata), t1),
      (tabPacket 0x40 0x00 (tabCc x.muxer.patCc) patHeader, t2),
      (tabPacket 0x50 0x01 (tabCc x.muxer.pmtCc) (pmtSec x.types.toSlice), t3)] (by
    intro t ht
    simp only [List.mem_cons, List.not_mem_nil, or_false] at ht
    rcases ht with rfl | rfl | rfl
    · exact ⟨tabPacket_len (by omega), q1⟩
    · exact ⟨tabPacket_len (by decide), q2⟩
    · exact ⟨tabPacket_len (by omega), q3⟩)
  refine ⟨by rw [h1]; exact hw, tabPacket 0x40 0x11 0 (sdtSec x.metadata) ++ (tabPacket 0x40 0x00 (tabCc x.muxer.patCc) patHeader ++
    tabPacket 0x50 0x01 (tabCc x.muxer.pmtCc) (pmtSec x.types.toSlice)), [t1, t2, t3], by rw [h1]; simp only [List.append_assoc], ?_, ?_⟩
  · simpa using hpp
  · intro t ht
    simp only [List.mem_cons, List.not_mem_nil, or_false] at ht
    rcases ht with rfl | rfl | rfl <;> omega

/-- What is known of a live mixer. -/
structure LInv (y x : Mixer) (vs : List VideoUnit) (as : List AudioUnit) : Prop where
  reach : MixReach x
  works : x.ts.Reliable
  out : ∃ out, x.ts.out = y.ts.out ++ out ∧ Delivered out vs as

theorem mux_works {y : Mixer} (h : MixReach y) (q : Packet) (hw : y.ts.Reliable) (hok : (y.mux q).1 = .ok ()) : (y.mux q).2.1.ts.Reliable := by
  obtain ⟨v, key, m', -, -, -, -, he⟩ := mixer_mux h q hw hok
  rw [he]; exact hw

theorem update_ts (x : Mixer) (p : Packet) (a b : UInt32) : (x.update p a b).2.ts = x.ts := by
  unfold Mixer.update
  simp only
  split
  · rfl
  split
  · split
    · split <;> rfl
    all_goals rfl
  · rfl

theorem Live.inv {z x : Mixer} {vs : List VideoUnit} {as : List AudioUnit} (h : Live z x vs as) (hz : MixReach z) (hw : z.ts.Reliable) :
    LInv z x vs as := by
  induction h with
  | start => exact ⟨hz, hw, [], by simp, ⟨[], rfl⟩, ⟨[], rfl, rfl, by simp⟩, ⟨[], rfl, rfl, by simp, by simp⟩⟩
  | @silent x vs as o _ hts ih => exact ⟨MixReach.op ih.reach o, by rw [hts]; exact ih.works, by rw [hts]; exact ih.out⟩
  | @tables x vs as _ hok ih =>
    obtain ⟨h1, out, ps, h2, h3, h4⟩ := header_stream ih.reach ih.works hok
    obtain ⟨o, h5, ⟨qs, h6⟩, ⟨V, v1, v2⟩, ⟨A, a1, a2⟩⟩ := ih.out
    refine ⟨MixReach.op ih.reach .header, h1, o ++ out, by rw [h2, h5, List.append_assoc], ⟨_, parseStream_append h6 h3⟩, ⟨V, ?_, v2⟩, ⟨A, ?_, a2⟩⟩
    · exact receive_other h3 _ (fun t ht => (h4 t ht).1) _ v1
    · exact receive_other h3 _ (fun t ht => (h4 t ht).2) _ a1
  | @video x vs as hs p b0 b2 b3 b4 nals a b _ hx ht hd hb hb7 hn hne h1 hlen ih =>
    obtain ⟨q, y, out, pes, e1, e2, e3, e4, e5, e6, e7, e8, e9⟩ :=
      C86_avc_end_to_end_partial hx ih.works p ht b0 b2 b3 b4 nals hd hb hb7 hn hne h1 a b _ rfl hlen
    rw [e1, e2]
    have hy := MixReach.op ih.reach (.update q a b)
    simp only [MixOp.after, e2] at hy
    have hyw : y.ts.Reliable := by
      have := update_ts x q a b
      rw [e2] at this
      rw [this]; exact ih.works
    obtain ⟨o, h5, ⟨qs, h6⟩, ⟨V, v1, v2, v3⟩, ⟨A, a1, a2⟩⟩ := ih.out
    obtain ⟨ps, h3, -⟩ := id e5
    refine ⟨MixReach.op hy (.mux q), mux_works hy q hyw e3, o ++ out, by rw [e4, h5, List.append_assoc], ⟨_, parseStream_append h6 h3⟩,
      ⟨V ++ [pes], ?_, ?_, ?_⟩, ⟨A, ?_, a2⟩⟩
    · rw [receive_carries e5 _ _ v1, if_pos rfl]
    · rw [List.map_append, v2, List.map_cons, List.map_nil, e8, e9, e7]
    · intro z hz
      rcases List.mem_append.mp hz with hz | hz
      · exact v3 z hz
      · rw [List.mem_singleton.mp hz]; exact e6
    · rw [receive_carries e5 _ _ a1, if_neg (by decide)]
  | @audio x vs as o i c p b0 frame a b _ hx ho hc ht hd hb hf hn ih =>
    obtain ⟨q, y, out, pes, hdr, e1, e2, e3, e4, e5, e6, e7, e8, e9, e10, e11⟩ :=
      C85_aac_end_to_end hx ho hc ih.works p ht b0 frame hd hb hf hn a b
    rw [e1, e2]
    have hy := MixReach.op ih.reach (.update q a b)
    simp only [MixOp.after, e2] at hy
    have hyw : y.ts.Reliable := by
      have := update_ts x q a b
      rw [e2] at this
      rw [this]; exact ih.works
    obtain ⟨ou, h5, ⟨qs, h6⟩, ⟨V, v1, v2, v3⟩, ⟨A, a1, a2, a3, a4⟩⟩ := ih.out
    have hlen : A.length = as.length := by
      have := congrArg List.length a2
      simpa using this
    obtain ⟨ps, h3, -⟩ := id e5
    refine ⟨MixReach.op hy (.mux q), mux_works hy q hyw e3, ou ++ out, by rw [e4, h5, List.append_assoc], ⟨_, parseStream_append h6 h3⟩,
      ⟨V, ?_, v2, v3⟩, ⟨A ++ [pes], ?_, ?_, ?_, ?_⟩⟩
    · rw [receive_carries e5 _ _ v1, if_neg (by decide)]
    · rw [receive_carries e5 _ _ a1, if_pos rfl]
    · rw [List.map_append, a2, List.map_append]
      simp only [List.map_cons, List.map_nil, e9, e11]
      rfl
    · intro z hz
      rcases List.mem_append.mp hz with hz | hz
      · exact a3 z hz
      · rw [List.mem_singleton.mp hz]; exact ⟨e6, e7⟩
    · intro k z u hz hu
      by_cases hk : k < A.length
      · rw [List.getElem?_append_left hk] at hz
        rw [List.getElem?_append_left (by omega)] at hu
        exact a4 k z u hz hu
      · rw [List.getElem?_append_right (by omega)] at hz
        rw [List.getElem?_append_right (by omega), ← hlen] at hu
        cases hj : k - A.length with
        | zero =>
          rw [hj] at hz hu
          simp only [List.getElem?_cons_zero, Option.some.injEq] at hz hu
          subst hz hu
          exact e8
        | succ j => rw [hj] at hz; simp at hz

/-- C109 (partial).  Whatever is sent from a reachable mixer to a working writer, a receiver gets exactly the frames, in
order.

Full claim: the same for small key frames (`C47`, `C48`; excluded by the `video` case of `Live`) and with stamps that
wrap at 2^33 (`C56`). -/
theorem C109_stream_partial {y x : Mixer} (hy : MixReach y) (hw : y.ts.Reliable) {vs : List VideoUnit} {as : List AudioUnit} (h : Live y x vs as) :
    ∃ out, x.ts.out = y.ts.out ++ out ∧ Delivered out vs as :=
  (Live.inv h hy hw).out

theorem parsePesAll_none (us : List Bytes) (u : Bytes) (hu : parsePes u = none) : parsePesAll (us ++ [u]) = none := by
  induction us with
  | nil => simp [parsePesAll, hu]
  | cons x xs ih =>
    simp only [List.cons_append, parsePesAll, ih]
    cases parsePes x <;> rfl

/-- The code violates the claim for every session in which a key frame with a PES packet of less than 184 bytes is sent: from 176 bytes
on `Mux` panics, and with less the receiver finds something on the video PID that is not a PES packet. -/
theorem C109_small_key_frame_refuted {y x : Mixer} (hy : MixReach y) (hw : y.ts.Reliable) {vs : List VideoUnit} {as : List AudioUnit} (h : Live y x vs as)
    {hs : List (Bytes × Bytes × Bytes)} (hx : MixHist x hs)
    (p : Packet) (ht : p.type = 0) (b0 b2 b3 b4 : UInt8) (nals : List Bytes) (hd : p.data = b0 :: 1 :: b2 :: b3 :: b4 :: avcc nals)
    (hb : b0.toNat / 16 = 1) (hb7 : b0.toNat % 16 = 7)
    (hn : ∀ n ∈ nals, Supported n) (hne : nals ≠ []) (h1 : ∀ n, nals.head? = some n → n.length ≠ 1) (a b : UInt32) (len : Nat)
    (hlen : len = (if 90 * b.toNat % 2 ^ 32 = 0 then 14 else 19) + (accessUnit (annexB (hs.flatMap fun x => [x.1, x.2.1 ++ x.2.2])) nals).length) :
    ∃ q, Flv.demux p = (.ok (), q) ∧ (176 ≤ len ∧ len < 184 → ((x.update q a b).2.mux q).1 = .panic) ∧
      (len < 176 → ∃ out, ((x.update q a b).2.mux q).2.1.ts.out = y.ts.out ++ out ∧ receive 0x100 out = none) := by
  have hi := Live.inv h hy hw
  obtain ⟨q, z, e1, e2, hz1, hz2⟩ := C86_small_key_frame_refuted hx hi.works p ht b0 b2 b3 b4 nals hd hb hb7 hn hne h1 a b _ rfl len hlen
  refine ⟨q, e1, ?_⟩
  rw [e2]
  refine ⟨hz1, fun h176 => ?_⟩
  obtain ⟨out, -, k2, ps, k3, k4, k5, k6, k7⟩ := hz2 h176
  obtain ⟨o, h5, ⟨qs, h6⟩, ⟨V, v1, -⟩, -⟩ := hi.out
  refine ⟨o ++ out, by rw [k2, h5, List.append_assoc], ?_⟩
  unfold receive at v1 ⊢
  rw [h6] at v1
  rw [parseStream_append h6 k3]
  simp only at v1 ⊢
  cases hu : units 0x100 qs with
  | none => rw [hu] at v1; simp at v1
  | some us =>
    have hf : ps.filter (·.pid == 0x100) = ps := filter_all _ _ fun t ht => by simp [k5 t ht]
    obtain ⟨c1, c2⟩ := cutUnits_one ps k4 k6
    rw [units_append hu (by rw [hf]; exact c2), hf, c1]
    exact parsePesAll_none us _ k7

/-- The first three packets of a stream. -/
theorem find_prefix {a b : Bytes} {ps qs : List TsPacket} (h : parseStream a = some ps) (h' : parseStream b = some qs) {l : List (Nat × Nat)}
    (ht : tune a = some l) : tune (a ++ b) = some l := by
  unfold tune at ht ⊢
  rw [h] at ht
  rw [parseStream_append h h']
  simp only [List.find?_append] at ht ⊢
  cases h1 : ps.find? (·.pid == 0) with
  | none => rw [h1] at ht; simp at ht
  | some t =>
    rw [h1] at ht
    simp only [Option.some_or] at ht ⊢
    split at ht
    · rename_i tsid body hsec
      split at ht
      · rename_i n pid hprog
        cases h2 : ps.find? (·.pid == pid) with
        | none => rw [h2] at ht; simp at ht
        | some t2 =>
          rw [h2] at ht
          simpa only [Option.some_or] using ht
      · simp at ht
    · simp at ht

theorem Live.after_tables {y x : Mixer} {vs : List VideoUnit} {as : List AudioUnit} (hok : y.setTsHeader.1 = .ok ())
    (h : Live y.setTsHeader.2 x vs as) : Live y x vs as := by
  induction h with
  | start => exact .tables .start hok
  | silent o _ hts ih => exact .silent o ih hts
  | tables _ hk ih => exact .tables ih hk
  | video hs p b0 b2 b3 b4 nals a b _ hx ht hd hb hb7 hn hne h1 hlen ih =>
    exact .video hs p b0 b2 b3 b4 nals a b ih hx ht hd hb hb7 hn hne h1 hlen
  | audio o i c p b0 frame a b _ hx ho hc ht hd hb hf hn ih => exact .audio o i c p b0 frame a b ih hx ho hc ht hd hb hf hn

theorem pat_section {b : Bytes} {t : TsPacket} {cc tsid : Nat} {l : List (Nat × Nat)} (h : parsePacket b = some t)
    (hp : parsePat b = some (cc, tsid, l)) :
    t.pid = 0 ∧ ∃ e body, parseSection t.payload = some ⟨0x00, e, body⟩ ∧ parsePrograms body = some l := by
  unfold parsePat at hp
  rw [h] at hp
  split at hp
  · rename_i cc pl he
    cases he
    split at hp
    · rename_i e body hs
      refine ⟨rfl, e, body, hs, ?_⟩
      cases hb : parsePrograms body with
      | none => rw [hb] at hp; simp at hp
      | some l' => rw [hb] at hp; simp at hp; rw [hp.2.2]
    · simp at hp
  · simp at hp

theorem pmt_section {b : Bytes} {t : TsPacket} {cc prog pcr : Nat} {l : List (Nat × Nat)} (h : parsePacket b = some t)
    (hp : parsePmtPacket b = some (cc, prog, pcr, l)) :
    t.pid = 0x1001 ∧ ∃ e body, parseSection t.payload = some ⟨0x02, e, body⟩ ∧ parsePmt body = some (pcr, l) := by
  unfold parsePmtPacket at hp
  rw [h] at hp
  split at hp
  · rename_i cc pl he
    cases he
    split at hp
    · rename_i e body hs
      refine ⟨rfl, e, body, hs, ?_⟩
      cases hb : parsePmt body with
      | none => rw [hb] at hp; simp at hp
      | some l' => rw [hb] at hp; simp at hp; rw [hp.2.2]
    · simp at hp
  · simp at hp

/-- What `SetTsHeader` writes tells the streams. -/
theorem header_tune {x : Mixer} (h : MixReach x) {v a : Bool} (ha : Announced x v a) (hw : x.ts.Reliable) (hok : x.setTsHeader.1 = .ok ()) :
    ∃ out, x.setTsHeader.2.ts.out = x.ts.out ++ out ∧ tune out = some (announcedStreams v a) := by
  obtain ⟨hs, hx⟩ := h
  obtain ⟨i, j, hh⟩ := (MixHist.inv hx).muxer
  have hg := Hist.good hh
  have hd : x.metadata.length ≤ 163 := by
    by_cases hd : x.metadata.length ≤ 163
    · exact hd
    · rw [header_panic hg (by omega)] at hok; simp at hok
  obtain ⟨m', h1, -, -⟩ := header_ok hg hd hw
  have hl := progInfo_length x.types.toSlice
  have hlen := pmtSec_length x.types.toSlice
  have hsh := pmt_short x.types
  have hls : (sdtSec x.metadata).length = 16 + x.metadata.length := by simp [sdtSec]; omega
  have p1 := parse_tabPacket 0x40 0x11 0 (sdtSec x.metadata) (by omega) (by decide) (by decide)
  have p2 := parse_tabPacket 0x40 0x00 (tabCc x.muxer.patCc) patHeader (by decide) (tabCc_lt _) (by decide)
  have p3 := parse_tabPacket 0x50 0x01 (tabCc x.muxer.pmtCc) (pmtSec x.types.toSlice) (by omega) (tabCc_lt _) (by decide)
  obtain ⟨o, g1, -, g2⟩ := C42_pat hh
  rw [pat_ok _ hg.pat] at g1
  simp only [Res.ok.injEq] at g1
  subst g1
  have g3 := pmt_packet hg x.types.toSlice (pmt_short x.types)
  obtain ⟨t1, q1, c1⟩ : ∃ t, parsePacket (tabPacket 0x40 0x11 0 (sdtSec x.metadata)) = some t ∧ t.pid = 0x11 := ⟨_, p1, rfl⟩
  obtain ⟨t2, q2⟩ : ∃ t, parsePacket (tabPacket 0x40 0x00 (tabCc x.muxer.patCc) patHeader) = some t := ⟨_, p2⟩
  obtain ⟨t3, q3⟩ : ∃ t, parsePacket (tabPacket 0x50 0x01 (tabCc x.muxer.pmtCc) (pmtSec x.types.toSlice)) = some t := ⟨_, p3⟩
  obtain ⟨c2, e2, b2, s2, r2⟩ := pat_section q2 g2
  obtain ⟨c3, e3, b3, s3, r3⟩ := pmt_section q3 g3
  have hpp := parseStream_flatten [(tabPacket 0x40 0x11 0 (sdtSec x.metadata), t1),
      (tabPacket 0x40 0x00 (tabCc x.muxer.patCc) patHeader, t2),
      (tabPacket 0x50 0x01 (tabCc x.muxer.pmtCc) (pmtSec x.types.toSlice), t3)] (by
    intro t ht
    simp only [List.mem_cons, List.not_mem_nil, or_false] at ht
    rcases ht with rfl | rfl | rfl
    · exact ⟨tabPacket_len (by omega), q1⟩
    · exact ⟨tabPacket_len (by decide), q2⟩
    · exact ⟨tabPacket_len (by omega), q3⟩)
  simp only [List.map_cons, List.map_nil, List.flatten_cons, List.flatten_nil, List.append_nil] at hpp
  refine ⟨tabPacket 0x40 0x11 0 (sdtSec x.metadata) ++ (tabPacket 0x40 0x00 (tabCc x.muxer.patCc) patHeader ++
    tabPacket 0x50 0x01 (tabCc x.muxer.pmtCc) (pmtSec x.types.toSlice)), by rw [h1]; simp only [List.append_assoc], ?_⟩
  unfold tune
  rw [hpp]
  simp only [List.find?_cons, c1, c2, c3, s2, r2, s3, r3, Option.map_some, announced_types ha,
    show ((17 : Nat) == 0) = false from rfl, show ((0 : Nat) == 0) = true from rfl, show ((17 : Nat) == 4097) = false from rfl,
    show ((0 : Nat) == 4097) = false from rfl, show ((4097 : Nat) == 4097) = true from rfl]
  cases v <;> cases a <;> rfl

/-- C109 for a receiver that begins with the tables: if the stream is opened with `SetTsHeader`, it learns from the PAT and
the PMT exactly the streams whose sequence headers had been saved (H.264 on PID 0x100, AAC on PID 0x101), and gets
exactly the frames sent, in order. -/
theorem C109_receiver_partial {y x : Mixer} (hy : MixReach y) (hw : y.ts.Reliable) {v a : Bool} (ha : Announced y v a)
    (hok : y.setTsHeader.1 = .ok ()) {vs : List VideoUnit} {as : List AudioUnit} (h : Live y.setTsHeader.2 x vs as) :
    ∃ out, x.ts.out = y.ts.out ++ out ∧ Delivered out vs as ∧
      tune out = some ((if v then [(0x1b, 0x100)] else []) ++ (if a then [(0x0f, 0x101)] else [])) := by
  obtain ⟨h1, o1, ps, h2, h3, h4⟩ := header_stream hy hw hok
  obtain ⟨o1', k2, k3⟩ := header_tune hy ha hw hok
  rw [h2] at k2
  have := List.append_cancel_left k2
  subst this
  obtain ⟨o2, g1, ⟨qs, g2⟩, -⟩ := C109_stream_partial (MixReach.op hy .header) h1 h
  have hl : Live y x vs as := Live.after_tables hok h
  obtain ⟨o, l1, l2⟩ := C109_stream_partial hy hw hl
  have : o = o1 ++ o2 := by
    have : y.ts.out ++ o = y.ts.out ++ (o1 ++ o2) := by
      rw [← l1, g1]
      show y.setTsHeader.2.ts.out ++ o2 = _
      rw [h2, List.append_assoc]
    exact List.append_cancel_left this
  subst this
  exact ⟨_, l1, l2, find_prefix h3 g2 k3⟩

/-- A session: the tables, an inter frame at 40 ms and an AAC frame at 50 ms. -/
theorem live_mixer2 : mixer2.setTsHeader.1 = .ok () ∧ Announced mixer2 true true ∧ ∃ x, Live mixer2.setTsHeader.2 x
    [⟨3600, 3600, [0, 0, 0, 1, 9, 0xf0, 0, 0, 0, 1, 0x41, 5, 6]⟩] [⟨50, 2, 4, 2, [9, 8, 7]⟩] := by
  refine ⟨by decide +kernel, announced_mixer2, ?_⟩
  have h1 : MixHist mixer2.setTsHeader.2 [([0x67, 1, 2], [0x68, 3], [])] := by
    have : MixHist mixer2 [([0x67, 1, 2], [0x68, 3], [])] := by
      rw [mixer2_eq]
      refine .other (.saveAAC aacCfg) (.record (.saveAVC avcCfg) avcCfg _ _ _ (.new Sink.mem) rfl ⟨rfl, _, _, rfl, rfl, rfl⟩
        ⟨by simp, by decide, by simp, by decide, 1, 100, 0, 31, 0xff, 0xe1, 1, by decide⟩) ?_
      intro p hp ha
      cases hp
      exact absurd ha.1 (by decide)
    exact .other .header this (by intro p hp; cases hp)
  have h2 : MixConf mixer2.setTsHeader.2 2 4 2 := .other .header conf_mixer2 (by intro p hp; cases hp)
  generalize mixer2.setTsHeader.2 = y at *
  have h3 := Live.video (y := y) _ { type := 0, data := [0x27, 1, 0, 0, 0] ++ avcc [[0x41, 5, 6]] } 0x27 0 0 0 [[0x41, 5, 6]] 40 0
    .start h1 rfl rfl (by decide) (by decide) (by
      intro n hn
      simp only [List.mem_cons, List.not_mem_nil, or_false] at hn
      subst hn
      exact ⟨by simp, by simp, by decide⟩) (by simp) (by simp) (by intro h; exact absurd h (by decide))
  generalize hq : (Flv.demux { type := 0, data := [0x27, 1, 0, 0, 0] ++ avcc [[0x41, 5, 6]] }).2 = q at *
  have hq0 : q.type = 0 := by rw [← hq]; decide +kernel
  have h4 : MixConf ((y.update q 40 0).2.mux q).2.1 2 4 2 := .other (.mux q) (.other (.update q 40 0) h2 (by intro p hp; cases hp))
    (by intro p hp; cases hp; intro ha; exact absurd ha.1 (by rw [hq0]; decide))
  exact ⟨_, .audio 2 4 2 { type := 1, data := [0xaf, 1, 9, 8, 7] } 0xaf [9, 8, 7] 50 0 h3 h4 (by decide) (by decide) rfl rfl (by decide)
    (by simp) (by decide)⟩

/-- A key frame of three bytes as the first frame of a session. -/
example : ∃ q, Flv.demux { type := 0, data := [0x17, 1, 0, 0, 0] ++ avcc [[0x65, 1, 2]] } = (.ok (), q) ∧
    ∃ out, ((mixer2.update q 40 0).2.mux q).2.1.ts.out = mixer2.ts.out ++ out ∧ receive 0x100 out = none := by
  obtain ⟨q, h1, -, h2⟩ := C109_small_key_frame_refuted reach_mixer2 works_mixer2 .start hist_mixer2
    { type := 0, data := [0x17, 1, 0, 0, 0] ++ avcc [[0x65, 1, 2]] } rfl 0x17 0 0 0 [[0x65, 1, 2]] rfl (by decide) (by decide)
    (by
      intro n hn
      simp only [List.mem_cons, List.not_mem_nil, or_false] at hn
      subst hn
      exact ⟨by simp, by simp, by decide⟩) (by simp) (by simp) 40 0 40 (by decide +kernel)
  exact ⟨q, h1, h2 (by decide)⟩

end Verif.Props
