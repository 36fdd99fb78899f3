import Verif.Spec.RelayTs
import Verif.Lemmas.Relay
import Verif.Props.TsSeq
/-! # Lemmas about the relay with viewers -/
namespace Verif.Relay
open Verif Verif.Props Verif.Ts Verif.Spec.Flv Verif.Spec.Ts Verif.Spec.Es Verif.Spec.Relay

/-! ## Packets keep what counts -/

theorem saveHeader_packet_data (x : Mixer) (p : Packet) : ∃ m, (x.saveHeader p).2.2 = { p with media := m } := by
  unfold Mixer.saveHeader Mixer.parse
  rcases Parser.parse p ⟨x.parser, Sink.mem⟩ with ⟨_ | e | _ | _, d⟩
  · exact ⟨_, rfl⟩
  all_goals exact ⟨p.media, rfl⟩

theorem write_packet (x : Viewer) (p : Packet) :
    (x.write p).2.data = p.data ∧ (x.write p).2.type = p.type ∧ (x.write p).2.timeStamp = p.timeStamp := by
  have h := demux_data p
  have key : ∀ q : Packet, (∃ m, q = { (Flv.demux p).2 with media := m }) → q.data = p.data ∧ q.type = p.type ∧ q.timeStamp = p.timeStamp := by
    rintro q ⟨m, rfl⟩; exact h
  unfold Viewer.write
  simp only
  split
  · exact h
  split
  · exact key _ (saveHeader_packet_data _ _)
  split
  · exact key _ (saveHeader_packet_data _ _)
  · exact key _ (mux_packet_data _ _)

theorem Holds.write {t : TagRec} {p : Packet} (h : Holds t p) (x : Viewer) : Holds t (x.write p).2 := by
  obtain ⟨h1, h2, h3⟩ := write_packet x p
  exact ⟨h2.trans h.type, h3.trans h.time, by rw [h1]; exact h.data⟩

/-! ## A viewer -/

/-- The records in the history of a mixer with these parameter sets. -/
def records : Option (Bytes × Bytes) → List (Bytes × Bytes × Bytes)
  | some (sps, pps) => [(sps, pps, [])]
  | none => []

theorem records_sets (s : Option (Bytes × Bytes)) : (records s).flatMap (fun x => [x.1, x.2.1 ++ x.2.2]) = sets s := by
  rcases s with _ | ⟨sps, pps⟩ <;> simp [records, sets]

structure VInv (x : Viewer) (s : Option (Bytes × Bytes)) (c : Option (Nat × Nat × Nat)) (vs : List VideoUnit) (as : List AudioUnit)
    (v a : Bool) : Prop where
  hist : MixHist x.mixer (records s)
  conf : ∀ o i ch, c = some (o, i, ch) → MixConf x.mixer o i ch ∧ (1 ≤ o ∧ o ≤ 4) ∧ ch ≤ 7
  state : (x.opened = false ∧ vs = [] ∧ as = [] ∧ x.mixer.ts.out = [] ∧ x.mixer.ts.Reliable ∧ x.mixer.metadata = [] ∧ Announced x.mixer v a) ∨
    (x.opened = true ∧ ∃ y, MixReach y ∧ y.ts.out = [] ∧ y.ts.Reliable ∧ Announced y v a ∧ y.setTsHeader.1 = .ok () ∧
      Live y.setTsHeader.2 x.mixer vs as)

theorem VInv.new : VInv { mixer := Mixer.new Sink.mem } none none [] [] false false :=
  ⟨.new _, by simp, .inl ⟨rfl, rfl, rfl, rfl, fun _ => rfl, rfl, .new _⟩⟩

theorem VInv.begin {x : Viewer} {s c vs as v a} (h : VInv x s c vs as v a) : VInv x.begin s c vs as v a ∧ x.begin.opened = true := by
  rcases h.state with ⟨h1, rfl, rfl, h4, h5, h6, h7⟩ | ⟨h1, h2⟩
  · have hb : x.begin = { mixer := x.mixer.setTsHeader.2, opened := true } := by unfold Viewer.begin; rw [h1]; rfl
    rw [hb]
    obtain ⟨i, j, hh⟩ := (MixHist.inv h.hist).muxer
    obtain ⟨m', e, -⟩ := header_ok (Hist.good hh) (by rw [h6]; simp) h5
    refine ⟨⟨.other .header h.hist (by intro p hp; cases hp), fun o i ch hc => ?_, .inr ⟨rfl, x.mixer, ⟨_, h.hist⟩, h4, h5, h7, by rw [e], .start⟩⟩, rfl⟩
    obtain ⟨k1, k2⟩ := h.conf o i ch hc
    exact ⟨.other .header k1 (by intro p hp; cases hp), k2⟩
  · have hb : x.begin = x := by unfold Viewer.begin; rw [h1]; rfl
    rw [hb]
    exact ⟨h, h1⟩

theorem holds_data {t : TagRec} {p : Packet} (h : Holds t p) (ht : t.type = 9 ∨ t.type = 8) : p.data = t.payload := by
  have : delivered t = t := by unfold delivered; rw [if_neg (by rintro ⟨h1, -⟩; omega)]
  rcases h.data with h | h
  · exact h
  · rw [h, this]

theorem step_script {x : Viewer} {s c vs as v a} (h : VInv x s c vs as v a) {time : Nat} {payload : Bytes} {p : Packet}
    (hp : Holds ⟨18, time, payload⟩ p) : VInv (x.write p).1 s c vs as v a := by
  have : (Flv.demux p).2.type = 2 := by rw [(demux_data p).2.1, hp.type]; rfl
  unfold Viewer.write
  simp only [this, if_true]
  exact h

theorem step_videoHdr {x : Viewer} {c vs as v a} (h : VInv x none c vs as v a) {time : Nat} {b0 b2 b3 b4 : UInt8} {m sps pps : Bytes}
    (hb : b0.toNat / 16 = 1) (hb7 : b0.toNat % 16 = 7) (hm : Record m sps pps []) {p : Packet}
    (hp : Holds ⟨9, time, b0 :: 0 :: b2 :: b3 :: b4 :: m⟩ p) :
    (x.write p).1.opened = x.opened ∧ VInv (x.write p).1 (some (sps, pps)) c vs as (if x.opened then v else true) a := by
  have ht : p.type = 0 := by rw [hp.type]; rfl
  obtain ⟨q, vh, ah, h0, hq, hcfg, hk⟩ := avc_config_demux p ht b0 b2 b3 b4 m (holds_data hp (.inl rfl)) hb hb7
  have hqt : q.type = 0 := hcfg.1
  have hs : saysVideoHdr q = true := by
    obtain ⟨_, v', a', hh, -, h2⟩ := hcfg
    simp [saysVideoHdr, hqt, hh, h2]
  have hw : (x.write p).1 = { x with mixer := (x.mixer.saveAVCHeader q).2.1 } := by
    unfold Viewer.write
    simp only [h0, hqt, hs, if_true]
    rfl
  rw [hw]
  have hts : (x.mixer.saveAVCHeader q).2.1.ts = x.mixer.ts := (saveHeader_parts { x.mixer with types := x.mixer.types.isVideo } q).2.2.2.2.2.2.1
  have hmd : (x.mixer.saveAVCHeader q).2.1.metadata = x.mixer.metadata := (saveHeader_parts { x.mixer with types := x.mixer.types.isVideo } q).2.2.2.2.2.1
  refine ⟨rfl, .record (.saveAVC q) q sps pps [] h.hist rfl hcfg (by rw [hq]; exact hm), fun o i ch hc => ?_, ?_⟩
  · obtain ⟨k1, k2⟩ := h.conf o i ch hc
    refine ⟨.other (.saveAVC q) k1 ?_, k2⟩
    intro p' hp' ha
    cases hp'
    exact absurd ha.1 (by rw [hqt]; decide)
  · rcases h.state with ⟨h1, h2, h3, h4, h5, h6, h7⟩ | ⟨h1, y, k1, k2, k3, k4, k5, k6⟩
    · left
      rw [h1]
      exact ⟨rfl, h2, h3, by simp only [hts]; exact h4, by simp only [hts]; exact h5, by simp only [hmd]; exact h6, .avc q h7⟩
    · right
      rw [h1]
      exact ⟨rfl, y, k1, k2, k3, k4, k5, .silent (.saveAVC q) k6 hts⟩

theorem step_audioHdr {x : Viewer} {s c vs as v a} (h : VInv x s c vs as v a) {time : Nat} {b0 : UInt8} {o i ch l : Nat} {extra : Bytes}
    (hb : b0.toNat / 16 = 10) (ho : 1 ≤ o ∧ o ≤ 4) (hi : i < 13) (hch : ch ≤ 7) (hl : l < 8) {p : Packet}
    (hp : Holds ⟨8, time, b0 :: 0 :: (audioConfig o i ch l ++ extra)⟩ p) :
    (x.write p).1.opened = x.opened ∧ VInv (x.write p).1 s (some (o, i, ch)) vs as v (if x.opened then a else true) := by
  have ht : p.type = 1 := by rw [hp.type]; rfl
  obtain ⟨q, h0, hqm, hqt, hcfg⟩ := aac_config_demux p ht b0 _ (holds_data hp (.inr rfl)) hb
  have hv : saysVideoHdr q = false := by simp [saysVideoHdr, hqt]
  have hs : saysAudioHdr q = true := by
    obtain ⟨hd, g0, g1⟩ := (C08_flv_audio_header p ht b0 0 _ (holds_data hp (.inr rfl))).1 hb
    rw [h0] at g0
    obtain rfl := (Prod.mk.inj g0).2
    obtain ⟨v', a'⟩ := hd
    simp only at g1
    subst g1
    simp [saysAudioHdr, audioAnswers, ht]
  have hw : (x.write p).1 = { x with mixer := (x.mixer.saveAACHeader q).2.1 } := by
    unfold Viewer.write
    simp only [h0, hqt, hv, hs, if_true]
    rfl
  rw [hw]
  have hts : (x.mixer.saveAACHeader q).2.1.ts = x.mixer.ts := (saveHeader_parts { x.mixer with types := x.mixer.types.isAudio } q).2.2.2.2.2.2.1
  have hmd : (x.mixer.saveAACHeader q).2.1.metadata = x.mixer.metadata := (saveHeader_parts { x.mixer with types := x.mixer.types.isAudio } q).2.2.2.2.2.1
  refine ⟨rfl, .other (.saveAAC q) h.hist ?_, fun o' i' ch' hc => ?_, ?_⟩
  · intro p' hp' ha
    cases hp'
    exact absurd ha.1 (by rw [hqt]; decide)
  · obtain ⟨rfl, rfl, rfl⟩ : o = o' ∧ i = i' ∧ ch = ch' := by simpa using hc
    exact ⟨.config (.saveAAC q) q o i ch l extra ⟨_, h.hist⟩ rfl hcfg hqm (by omega) hi (by omega) hl, ho, hch⟩
  · rcases h.state with ⟨h1, h2, h3, h4, h5, h6, h7⟩ | ⟨h1, y, k1, k2, k3, k4, k5, k6⟩
    · left
      rw [h1]
      exact ⟨rfl, h2, h3, by simp only [hts]; exact h4, by simp only [hts]; exact h5, by simp only [hmd]; exact h6, .aac q h7⟩
    · right
      rw [h1]
      exact ⟨rfl, y, k1, k2, k3, k4, k5, .silent (.saveAAC q) k6 hts⟩

/-- The composition time the header answers. -/
theorem composition_eq (p : Packet) (ht : p.type = 0) (b0 b2 b3 b4 : UInt8) (m : Bytes) (hd : p.data = b0 :: 1 :: b2 :: b3 :: b4 :: m)
    (hb : b0.toNat / 16 = 1 ∨ b0.toNat / 16 = 2) (hs : b2.toNat < 128) :
    composition (Flv.demux p).2 = UInt32.ofNat (b2.toNat * 65536 + b3.toNat * 256 + b4.toNat) := by
  obtain ⟨⟨v0, a0⟩, v, h1, h2, h3⟩ := C10_flv_composition_partial p ht b0 b2 b3 b4 m hd hb hs
  simp only at h2
  subst h2
  have := b3.toNat_lt; have := b4.toNat_lt
  unfold composition
  rw [(demux_data p).2.1, if_pos ht, h1]
  simp only [h3, si24]
  rw [if_pos (by omega)]
  rw [UInt32.ofInt, ← UInt32.toNat_inj]; simp; omega

theorem step_video {x : Viewer} {s c vs as v a} (h : VInv x s c vs as v a) {time : Nat} {b0 b2 b3 b4 : UInt8} {nals : List Bytes} {au : Bytes}
    (hb : b0.toNat / 16 = 1 ∨ b0.toNat / 16 = 2) (hb7 : b0.toNat % 16 = 7) (hb2 : b2.toNat < 128) (htime : time < 47721859)
    (hn : ∀ n ∈ nals, Supported n) (hne : nals ≠ []) (h1 : ∀ n, nals.head? = some n → n.length ≠ 1)
    (hau : au = accessUnit (annexB (sets s)) nals)
    (hlen : b0.toNat / 16 = 1 → 170 ≤ au.length) {p : Packet} (hp : Holds ⟨9, time, b0 :: 1 :: b2 :: b3 :: b4 :: avcc nals⟩ p) :
    (x.write p).1.opened = true ∧ VInv (x.write p).1 s c
      (vs ++ [⟨90 * time + 90 * (b2.toNat * 65536 + b3.toNat * 256 + b4.toNat), 90 * time, au⟩]) as v a := by
  have ht : p.type = 0 := by rw [hp.type]; rfl
  have hd := holds_data hp (.inl rfl)
  simp only at hd
  have hc := composition_eq p ht b0 b2 b3 b4 _ hd hb hb2
  obtain ⟨vh, ah, h0, hcfg, hk⟩ := avc_demux p ht b0 b2 b3 b4 _ hd hb hb7
  generalize hq : (Flv.demux p).2 = q at hc
  have hqe : q = { p with header := some ⟨some vh, some ah⟩, media := avcc nals } := by rw [← hq, h0]
  have hqt : q.type = 0 := by rw [hqe]; exact ht
  have hqs : q.timeStamp = UInt32.ofNat time := by rw [hqe]; exact hp.time
  have hv : saysVideoHdr q = false := by simp [saysVideoHdr, hqe, hcfg.2]
  have ha : saysAudioHdr q = false := by simp [saysAudioHdr, hqt]
  obtain ⟨hbg, hop⟩ := VInv.begin h
  have hw : (x.write p).1 = { x.begin with mixer := ((x.begin.mixer.update q q.timeStamp (composition q)).2.mux q).2.1 } := by
    unfold Viewer.write
    simp only [hq, hqt, hv, ha]
    rfl
  rw [hw, hc, hqs]
  have hnot : ∀ p', (MixOp.mux q).packet = some p' → avcConfig p' → False := by
    intro p' hp' hcf
    cases hp'
    obtain ⟨-, v', a', hh, -, h2⟩ := hcf
    rw [hqe] at hh
    simp only [Option.some.injEq, Header.mk.injEq] at hh
    rw [← hh.1, hcfg.2] at h2
    exact absurd h2 (by simp)
  refine ⟨hop, ?_, fun o i ch hcc => ?_, ?_⟩
  · exact .other (.mux q) (.other (.update q _ _) hbg.hist (by intro p hp; cases hp)) (fun p' hp' hcf => (hnot p' hp' hcf).elim)
  · obtain ⟨k1, k2⟩ := hbg.conf o i ch hcc
    refine ⟨.other (.mux q) (.other (.update q _ _) k1 (by intro p hp; cases hp)) ?_, k2⟩
    intro p' hp' ha'
    cases hp'
    exact absurd ha'.1 (by rw [hqt]; decide)
  · right
    rcases hbg.state with ⟨g, -⟩ | ⟨-, y, k1, k2, k3, k4, k5, k6⟩
    · rw [hop] at g; simp at g
    refine ⟨hop, y, k1, k2, k3, k4, k5, ?_⟩
    have := b3.toNat_lt; have := b4.toNat_lt
    have e1 : 90 * (UInt32.ofNat time).toNat % 2 ^ 32 = 90 * time := by simp; omega
    have e2 : 90 * (UInt32.ofNat (b2.toNat * 65536 + b3.toNat * 256 + b4.toNat)).toNat % 2 ^ 32 = 90 * (b2.toNat * 65536 + b3.toNat * 256 + b4.toNat) := by
      simp; omega
    have := Live.video (records s) p b0 b2 b3 b4 nals (UInt32.ofNat time) (UInt32.ofNat (b2.toNat * 65536 + b3.toNat * 256 + b4.toNat))
      k6 hbg.hist ht hd hb hb7 hn hne h1 (by
        intro hkey
        rw [records_sets, ← hau]
        have := hlen hkey
        split <;> omega)
    rw [records_sets, ← hau, e1, e2, hq] at this
    exact this

theorem step_audio {x : Viewer} {s vs as v a} {o i ch : Nat} (h : VInv x s (some (o, i, ch)) vs as v a) {time : Nat} {b0 : UInt8} {frame : Bytes}
    (hb : b0.toNat / 16 = 10) (hf : frame ≠ []) (hn : frame.length ≤ 8184) {p : Packet} (hp : Holds ⟨8, time, b0 :: 1 :: frame⟩ p) :
    (x.write p).1.opened = true ∧ VInv (x.write p).1 s (some (o, i, ch)) vs (as ++ [⟨UInt32.ofNat time, o, i, ch, frame⟩]) v a := by
  have ht : p.type = 1 := by rw [hp.type]; rfl
  have hd := holds_data hp (.inr rfl)
  simp only at hd
  obtain ⟨⟨v0, a0⟩, g0, g1⟩ := (C08_flv_audio_header p ht b0 1 frame hd).1 hb
  simp only at g1
  subst g1
  generalize hq : (Flv.demux p).2 = q
  have hqe : q = { p with header := some ⟨v0, some (audioAnswers 10 (1 : UInt8).toNat)⟩, media := frame } := by rw [← hq, g0]
  have hqt : q.type = 1 := by rw [hqe]; exact ht
  have hqs : q.timeStamp = UInt32.ofNat time := by rw [hqe]; exact hp.time
  have hv : saysVideoHdr q = false := by simp [saysVideoHdr, hqt]
  have ha : saysAudioHdr q = false := by simp [saysAudioHdr, hqe, audioAnswers]
  obtain ⟨hbg, hop⟩ := VInv.begin h
  have hw : (x.write p).1 = { x.begin with mixer := ((x.begin.mixer.update q q.timeStamp (composition q)).2.mux q).2.1 } := by
    unfold Viewer.write
    simp only [hq, hqt, hv, ha]
    rfl
  rw [hw, hqs]
  obtain ⟨k1, ho, hch⟩ := hbg.conf o i ch rfl
  refine ⟨hop, ?_, fun o' i' ch' hcc => ?_, ?_⟩
  · refine .other (.mux q) (.other (.update q _ _) hbg.hist (by intro p hp; cases hp)) ?_
    intro p' hp' hcf
    cases hp'
    exact absurd hcf.1 (by rw [hqt]; decide)
  · obtain ⟨rfl, rfl, rfl⟩ : o = o' ∧ i = i' ∧ ch = ch' := by simpa using hcc
    refine ⟨.other (.mux q) (.other (.update q _ _) k1 (by intro p hp; cases hp)) ?_, ho, hch⟩
    intro p' hp' ha'
    cases hp'
    obtain ⟨-, v', a', hh, -, h2⟩ := ha'
    rw [hqe] at hh
    simp only [Option.some.injEq, Header.mk.injEq] at hh
    rw [← hh.2] at h2
    exact absurd h2 (by decide)
  · right
    rcases hbg.state with ⟨g, -⟩ | ⟨-, y, l1, l2, l3, l4, l5, l6⟩
    · rw [hop] at g; simp at g
    refine ⟨hop, y, l1, l2, l3, l4, l5, ?_⟩
    have := Live.audio o i ch p b0 frame (UInt32.ofNat time) (composition q) l6 k1 ho hch ht hd hb hf hn
    rw [hq] at this
    exact this

/-! ## All packets of a viewer -/

/-- The packets that hold these messages. -/
def HoldAll : List TagRec → List Packet → Prop
  | [], [] => True
  | t :: ts, p :: ps => Holds t p ∧ HoldAll ts ps
  | _, _ => False

/-- A viewer after some packets. -/
def watch (x : Viewer) (ps : List Packet) : Viewer := ps.foldl (fun x p => (x.write p).1) x

theorem Announces.cons {t : TagRec} {ts : List TagRec} {s : Option (Bytes × Bytes)} (h : Announces ts s) : Announces (t :: ts) s := by
  obtain ⟨a, b, c, d, e, f, g, i, h1, h2⟩ := h
  exact ⟨a, b, c, d, e, f, g, i, List.mem_cons_of_mem _ h1, h2⟩

theorem stream_watch {s c ts vs as} (h : Stream s c ts vs as) (ps : List Packet) (hp : HoldAll ts ps) (x : Viewer) (vs0 : List VideoUnit)
    (as0 : List AudioUnit) (v a : Bool) (hx : VInv x s c vs0 as0 v a) :
    ∃ s' c', (s' = s ∨ Announces ts s') ∧ VInv (watch x ps) s' c' (vs0 ++ vs) (as0 ++ as)
      (if x.opened then v else v || (ts.takeWhile (fun t => !isFrame t)).any (fun t => kind t = .videoHdr))
      (if x.opened then a else a || (ts.takeWhile (fun t => !isFrame t)).any (fun t => kind t = .audioHdr)) := by
  induction h generalizing ps x vs0 as0 v a with
  | done s c =>
    cases ps with
    | nil => exact ⟨s, c, .inl rfl, by simpa [watch] using hx⟩
    | cons p ps => exact hp.elim
  | @script s c ts vs as time payload _ ih =>
    cases ps with
    | nil => exact hp.elim
    | cons p ps =>
      obtain ⟨s', c', hk, k⟩ := ih ps hp.2 (x.write p).1 vs0 as0 v a (step_script hx hp.1)
      have hop : (x.write p).1.opened = x.opened := by
        have : (Flv.demux p).2.type = 2 := by rw [(demux_data p).2.1, hp.1.type]; rfl
        unfold Viewer.write
        simp only [this, if_true]
      refine ⟨s', c', hk.imp_right Announces.cons, ?_⟩
      rw [hop] at k
      have e : isFrame ⟨18, time, payload⟩ = false := by simp [isFrame, kind]
      have e1 : kind ⟨18, time, payload⟩ = .script := by simp [kind]
      simpa [watch, e, e1, List.takeWhile_cons] using k
  | @videoHdr c ts vs as time b0 b2 b3 b4 m sps pps hb hb7 hm _ ih =>
    cases ps with
    | nil => exact hp.elim
    | cons p ps =>
      obtain ⟨hop, k⟩ := step_videoHdr hx hb hb7 hm hp.1
      obtain ⟨s', c', hk, k⟩ := ih ps hp.2 _ vs0 as0 _ _ k
      refine ⟨s', c', hk.elim (fun e => .inr ⟨time, b0, b2, b3, b4, m, _, _, List.mem_cons_self, hm, e⟩) (fun h => .inr (Announces.cons h)), ?_⟩
      rw [hop] at k
      have e1 : kind ⟨9, time, b0 :: 0 :: b2 :: b3 :: b4 :: m⟩ = .videoHdr := by simp [kind, hb]
      have e : isFrame ⟨9, time, b0 :: 0 :: b2 :: b3 :: b4 :: m⟩ = false := by simp [isFrame, e1]
      cases ho : x.opened <;> simpa [watch, e, e1, List.takeWhile_cons, ho] using k
  | @video s c ts vs as time b0 b2 b3 b4 nals au hb hb7 hb2 htime hn hne h1 hau hlen _ ih =>
    cases ps with
    | nil => exact hp.elim
    | cons p ps =>
      obtain ⟨hop, k⟩ := step_video hx hb hb7 hb2 htime hn hne h1 hau hlen hp.1
      obtain ⟨s', c', hk, k⟩ := ih ps hp.2 _ _ as0 _ _ k
      refine ⟨s', c', hk.imp_right Announces.cons, ?_⟩
      rw [hop] at k
      have e : isFrame ⟨9, time, b0 :: 1 :: b2 :: b3 :: b4 :: avcc nals⟩ = true := by
        rcases hb with hb | hb <;> simp [isFrame, kind, hb]
      cases ho : x.opened <;> simpa [watch, e, List.takeWhile_cons, ho] using k
  | @audioHdr s c ts vs as time b0 o i ch l extra hb hoo hi hch hl _ ih =>
    cases ps with
    | nil => exact hp.elim
    | cons p ps =>
      obtain ⟨hop, k⟩ := step_audioHdr hx hb hoo hi hch hl hp.1
      obtain ⟨s', c', hk, k⟩ := ih ps hp.2 _ vs0 as0 _ _ k
      refine ⟨s', c', hk.imp_right Announces.cons, ?_⟩
      rw [hop] at k
      have e1 : kind ⟨8, time, b0 :: 0 :: (audioConfig o i ch l ++ extra)⟩ = .audioHdr := by simp [kind, hb]
      have e : isFrame ⟨8, time, b0 :: 0 :: (audioConfig o i ch l ++ extra)⟩ = false := by simp [isFrame, e1]
      cases ho : x.opened <;> simpa [watch, e, e1, List.takeWhile_cons, ho] using k
  | @audio s o i ch ts vs as time b0 frame hb htime hf hn _ ih =>
    cases ps with
    | nil => exact hp.elim
    | cons p ps =>
      obtain ⟨hop, k⟩ := step_audio hx hb hf hn hp.1
      obtain ⟨s', c', hk, k⟩ := ih ps hp.2 _ vs0 _ _ _ k
      refine ⟨s', c', hk.imp_right Announces.cons, ?_⟩
      rw [hop] at k
      have e : isFrame ⟨8, time, b0 :: 1 :: frame⟩ = true := by simp [isFrame, kind]
      cases ho : x.opened <;> simpa [watch, e, List.takeWhile_cons, ho] using k

/-- What comes out for a viewer. -/
theorem watch_out {ts vs as} (h : Stream none none ts vs as) (ps : List Packet) (hp : HoldAll ts ps) :
    Delivered (watch { mixer := Mixer.new Sink.mem } ps).mixer.ts.out vs as ∧
      (vs ≠ [] ∨ as ≠ [] → tune (watch { mixer := Mixer.new Sink.mem } ps).mixer.ts.out = some (streams ts)) := by
  obtain ⟨s', c', -, k⟩ := stream_watch h ps hp _ [] [] false false VInv.new
  simp only [List.nil_append, Bool.false_or, Bool.false_eq_true, if_false] at k
  rcases k.state with ⟨-, rfl, rfl, k4, -⟩ | ⟨-, y, k1, k2, k3, k4, k5, k6⟩
  · rw [k4]
    exact ⟨⟨⟨[], rfl⟩, ⟨[], rfl, rfl, by simp⟩, ⟨[], rfl, rfl, by simp, by simp⟩⟩, by simp⟩
  · obtain ⟨out, l1, l2, l3⟩ := C109_receiver_partial k1 k3 k4 k5 k6
    rw [k2, List.nil_append] at l1
    rw [l1]
    exact ⟨l2, fun _ => l3⟩

/-! ## The server -/

theorem feed_ok {t : TagRec} (xs : List Viewer) (p : Packet) (hp : Holds t p) :
    Holds t (feed xs p).2 ∧ (feed xs p).1.length = xs.length ∧
      ∀ (k : Nat) x, xs[k]? = some x → ∃ q, Holds t q ∧ (feed xs p).1[k]? = some (x.write q).1 := by
  induction xs generalizing p with
  | nil => exact ⟨hp, rfl, by simp⟩
  | cons x xs ih =>
    obtain ⟨h1, h2, h3⟩ := ih (x.write p).2 (hp.write x)
    refine ⟨h1, by simp [feed, h2], ?_⟩
    intro k y hk
    cases k with
    | zero =>
      obtain rfl : x = y := by simpa using hk
      exact ⟨p, hp, rfl⟩
    | succ k => exact h3 k y (by simpa using hk)

theorem replayTo_ok (ts : List TagRec) (is : List Nat) (hi : ∀ i ∈ is, i < ts.length) (store : List Packet) (hl : store.length = ts.length)
    (hs : ∀ (i : Nat) t, ts[i]? = some t → ∃ p, store[i]? = some p ∧ Holds t p) (x : Viewer) :
    (replayTo is store x).1.length = ts.length ∧ (∀ (i : Nat) t, ts[i]? = some t → ∃ p, (replayTo is store x).1[i]? = some p ∧ Holds t p) ∧
      ∃ ps, HoldAll (is.map fun i => ts.getD i ⟨0, 0, []⟩) ps ∧ (replayTo is store x).2 = watch x ps := by
  induction is generalizing store x with
  | nil => exact ⟨hl, hs, [], trivial, rfl⟩
  | cons i is ih =>
    have hlt := hi i (by simp)
    have ht : ts[i]? = some ts[i] := List.getElem?_eq_getElem hlt
    obtain ⟨p, hp, hh⟩ := hs i _ ht
    have hs1 : ∀ (j : Nat) t, ts[j]? = some t → ∃ q, (store.set i (x.write p).2)[j]? = some q ∧ Holds t q := by
      intro j t hj
      rw [List.getElem?_set]
      by_cases hij : i = j
      · subst hij
        rw [ht] at hj
        rw [if_pos rfl, if_pos (by omega)]
        exact ⟨_, rfl, by rw [← Option.some.inj hj]; exact hh.write x⟩
      · rw [if_neg hij]; exact hs j t hj
    obtain ⟨d1, d2, ps, d3, d4⟩ := ih (fun j hj => hi j (by simp [hj])) (store.set i (x.write p).2) (by simp [hl]) hs1 (x.write p).1
    have e : replayTo (i :: is) store x = replayTo is (store.set i (x.write p).2) (x.write p).1 := by rw [replayTo, hp]
    rw [e]
    refine ⟨d1, d2, p :: ps, ⟨?_, d3⟩, d4⟩
    simp only [List.getD_eq_getElem?_getD, ht, Option.getD_some]
    exact hh

/-- The messages the cache replays, as they were sent. -/
def raw (n : Nat) (ts : List TagRec) : List TagRec :=
  latest .script ts ++ latest .videoHdr ts ++ latest .audioHdr ts ++
    (Spec.Gop.newest n ((pictureGroups ts).map (List.take 1025))).flatten

theorem replay_raw {P : Type} (f : P → TagRec) (n : Nat) (h : Spec.Gop.History P) (hr : ∀ x ∈ h, Spec.Gop.role x.2 = toRole (kind (f x.1))) :
    (Spec.Gop.replay n h).map f = raw n (h.map (fun x => f x.1)) := by
  unfold Spec.Gop.replay raw Spec.Gop.kept
  have e1 := last_eq f .script h hr
  have e2 := last_eq f .videoHdr h hr
  have e3 := last_eq f .audioHdr h hr
  simp only [toRole] at e1 e2 e3
  rw [List.map_append (f := f), List.map_append (f := f), List.map_append (f := f), e1, e2, e3, List.map_flatten, newest_map, List.map_map,
    ← groups_eq f h hr, List.map_map]
  congr 4
  funext l
  simp [List.map_take]

/-- "@setDataFrame" or not makes no difference to a viewer. -/
theorem stream_delivered {s c ts vs as} (us : List TagRec) (h : Stream s c (ts.map delivered ++ us) vs as) :
    Stream s c (ts ++ us) vs as := by
  induction ts generalizing s c vs as with
  | nil => exact h
  | cons t ts ih =>
    by_cases ht : t.type = 18
    · have hd : ∃ time p p', t = ⟨18, time, p⟩ ∧ delivered t = ⟨18, time, p'⟩ := by
        obtain ⟨ty, time, p⟩ := t
        simp only at ht
        subst ht
        unfold delivered
        split
        · exact ⟨_, _, _, rfl, rfl⟩
        · exact ⟨_, _, _, rfl, rfl⟩
      obtain ⟨time, p, p', e1, e2⟩ := hd
      rw [List.map_cons, e2, List.cons_append] at h
      rw [e1, List.cons_append]
      cases h with
      | script _ _ h => exact .script _ _ (ih h)
    · have hd : delivered t = t := by unfold delivered; rw [if_neg (fun h => ht h.1)]
      rw [List.map_cons, hd, List.cons_append] at h
      rw [List.cons_append]
      cases h with
      | script _ _ h => exact absurd rfl ht
      | videoHdr _ _ _ _ _ _ _ _ h1 h2 h3 h => exact .videoHdr _ _ _ _ _ _ _ _ h1 h2 h3 (ih h)
      | video _ _ _ _ _ _ _ h1 h2 h3 h4 h5 h6 h7 h8 h9 h => exact .video _ _ _ _ _ _ _ h1 h2 h3 h4 h5 h6 h7 h8 h9 (ih h)
      | audioHdr _ _ _ _ _ _ _ h1 h2 h3 h4 h5 h => exact .audioHdr _ _ _ _ _ _ _ h1 h2 h3 h4 h5 (ih h)
      | audio _ _ _ h1 h2 h3 h4 h => exact .audio _ _ _ h1 h2 h3 h4 (ih h)

theorem kind_delivered (t : TagRec) : kind (delivered t) = kind t ∧ (delivered t).type = t.type := by
  unfold delivered
  split
  · rename_i h
    obtain ⟨ty, time, p⟩ := t
    simp only at h
    obtain ⟨rfl, -⟩ := h
    simp [kind]
  · exact ⟨rfl, rfl⟩

theorem streams_delivered (ts us : List TagRec) : streams (ts.map delivered ++ us) = streams (ts ++ us) := by
  have : ∀ f : TagRec → Bool, (∀ t, f (delivered t) = f t) →
      ((ts.map delivered ++ us).takeWhile (fun t => !isFrame t)).any f = ((ts ++ us).takeWhile (fun t => !isFrame t)).any f := by
    intro f hf
    induction ts with
    | nil => rfl
    | cons t ts ih =>
      have e : isFrame (delivered t) = isFrame t := by simp [isFrame, kind_delivered]
      simp only [List.map_cons, List.cons_append, List.takeWhile_cons, e]
      split
      · simp only [List.any_cons, hf, ih]
      · rfl
  unfold streams
  simp only
  rw [this _ (fun t => by simp [kind_delivered]), this _ (fun t => by simp [kind_delivered])]

theorem file_raw (n : Nat) (ts : List TagRec) : file n ts = (raw n ts).map delivered := rfl

theorem hub_publish (c : Gop.Cache Nat) (ts : List TagRec) (h : Hub) (hs : Inv c ts h.server) (t : TagRec) :
    Inv c (ts ++ [t]) (h.publish t).server ∧ (h.publish t).viewers.length = h.viewers.length ∧
      ∀ (k : Nat) x, h.viewers[k]? = some x → ∃ q, Holds t q ∧ (h.publish t).viewers[k]? = some (x.write q).1 := by
  obtain ⟨h1, h2, h3⟩ := demux_data (packetOf t)
  have hp : Holds t (Flv.demux (packetOf t)).2 := ⟨h2, h3, .inl h1⟩
  obtain ⟨f1, f2, f3⟩ := feed_ok h.viewers _ hp
  refine ⟨?_, f2, f3⟩
  obtain ⟨i1, i2, i3⟩ := inv_publish c ts h.server hs t
  refine ⟨by simpa [Hub.publish] using i1, ?_, i3⟩
  intro i u hu
  obtain ⟨p, p1, p2⟩ := i2 i u hu
  simp only [Hub.publish]
  rw [List.getElem?_set]
  by_cases hi : h.server.store.length = i
  · rw [if_pos hi, if_pos (by rw [i1, hs.len]; simp)]
    rw [← hi, hs.len, List.getElem?_append_right (by omega)] at hu
    obtain rfl : t = u := by simpa using hu
    exact ⟨_, rfl, f1⟩
  · rw [if_neg hi]
    exact ⟨p, p1, p2⟩

theorem hub_join (n : Nat) (c : Gop.Cache Nat) (hc : Gop.newCache n = .ok c) (ts : List TagRec) (hv : ∀ t ∈ ts, Valid t) (h : Hub) (hs : Inv c ts h.server) :
    Inv c ts h.join.server ∧ ∃ ps, HoldAll (raw n ts) ps ∧ h.join.viewers = h.viewers ++ [watch { mixer := Mixer.new Sink.mem } ps] := by
  have hr : (h.server.cache.sendTo { out := [] }).2.out = Spec.Gop.replay n (hist ts) := by
    rw [hs.cache, C02_replay n c hc (hist ts) { out := [] } (fun _ => rfl)]
    simp
  have hi : ∀ i ∈ Spec.Gop.replay n (hist ts), i < ts.length := by
    intro i h
    obtain ⟨p, h⟩ := mem_replay n _ i h
    obtain ⟨t, h, _⟩ := mem_hist ts _ h
    exact (List.getElem?_eq_some_iff.mp h).1
  obtain ⟨d1, d2, ps, d3, d4⟩ := replayTo_ok ts _ hi h.server.store hs.len hs.holds { mixer := Mixer.new Sink.mem }
  have hf : (Spec.Gop.replay n (hist ts)).map (fun i => ts.getD i ⟨0, 0, []⟩) = raw n ts := by
    have := replay_raw (fun i => ts.getD i ⟨0, 0, []⟩) n (hist ts) (by
      intro x hx
      obtain ⟨t, h1, h2⟩ := mem_hist ts x hx
      rw [h2, role_eq t (hv t (List.mem_of_getElem? h1)), List.getD_eq_getElem?_getD, h1, Option.getD_some])
    rw [hist_map] at this
    exact this
  rw [hf] at d3
  refine ⟨⟨?_, ?_, hs.cache⟩, ps, d3, ?_⟩
  · simp only [Hub.join, hr]; exact d1
  · simp only [Hub.join, hr]; exact d2
  · simp only [Hub.join, hr, d4]

theorem HoldAll.append {ts us : List TagRec} {ps qs : List Packet} (h : HoldAll ts ps) (h' : HoldAll us qs) : HoldAll (ts ++ us) (ps ++ qs) := by
  induction ts generalizing ps with
  | nil => cases ps with
    | nil => exact h'
    | cons p ps => exact h.elim
  | cons t ts ih => cases ps with
    | nil => exact h.elim
    | cons p ps => exact ⟨h.1, ih h.2⟩

/-- What a run does to the server and to each viewer. -/
theorem hub_run (n : Nat) (c : Gop.Cache Nat) (hc : Gop.newCache n = .ok c) (es : List HubEvent) (ts : List TagRec)
    (hv : ∀ t ∈ ts ++ sent es, Valid t) (h : Hub) (hs : Inv c ts h.server) :
    Inv c (ts ++ sent es) (h.run es).server ∧
      ∀ (k : Nat) x, h.viewers[k]? = some x → ∃ ps, HoldAll (sent es) ps ∧ (h.run es).viewers[k]? = some (watch x ps) := by
  induction es generalizing ts h with
  | nil => exact ⟨by simpa [sent, Hub.run] using hs, fun k x hk => ⟨[], trivial, hk⟩⟩
  | cons e es ih =>
    cases e with
    | publish t =>
      obtain ⟨h1, h2, h3⟩ := hub_publish c ts h hs t
      obtain ⟨g1, g2⟩ := ih (ts ++ [t]) (by simpa [sent] using hv) (h.publish t) h1
      refine ⟨by simpa [sent, Hub.run] using g1, ?_⟩
      intro k x hk
      obtain ⟨q, q1, q2⟩ := h3 k x hk
      obtain ⟨ps, p1, p2⟩ := g2 k _ q2
      exact ⟨q :: ps, ⟨q1, p1⟩, p2⟩
    | subscribe =>
      exact ih ts hv { h with server := h.server.subscribe.2.2 } (subscribe_ok n c hc ts (fun t ht => hv t (by simp [ht])) h.server hs).2.2
    | join =>
      obtain ⟨h1, ps, -, h3⟩ := hub_join n c hc ts (fun t ht => hv t (by simp [ht])) h hs
      obtain ⟨g1, g2⟩ := ih ts hv h.join h1
      refine ⟨g1, ?_⟩
      intro k x hk
      apply g2 k x
      rw [h3, List.getElem?_append_left (List.getElem?_eq_some_iff.mp hk).1]
      exact hk

end Verif.Relay
