import Verif.Spec.TsSegments
import Verif.Props.TsStream
/-!
# Property C169: a stream can be cut into segments
-/
namespace Verif.Props
open Verif Verif.Ts Verif.Spec.Ts Verif.Spec.Es

/-- Except for what it has received, the writer makes no difference to the operation. -/
def Blind {α : Type} (f : GoM Env α) : Prop :=
  ∀ m, ∃ r m' o, ∀ w : Sink, w.Reliable → ∃ w', f ⟨m, w⟩ = (r, ⟨m', w'⟩) ∧ w'.Reliable ∧ w'.out = w.out ++ o

theorem Blind.pure {α : Type} (a : α) : Blind (Pure.pure a : GoM Env α) := fun m => ⟨.ok a, m, [], fun w hw => ⟨w, rfl, hw, by simp⟩⟩
theorem Blind.lift {α : Type} (r : Res α) : Blind (GoM.lift r : GoM Env α) := fun m => ⟨r, m, [], fun w hw => ⟨w, rfl, hw, by simp⟩⟩
theorem Blind.fail {α : Type} (e : Err) : Blind (GoM.fail e : GoM Env α) := fun m => ⟨.err e, m, [], fun w hw => ⟨w, rfl, hw, by simp⟩⟩
theorem Blind.diverge {α : Type} : Blind (GoM.diverge : GoM Env α) := fun m => ⟨.diverge, m, [], fun w hw => ⟨w, rfl, hw, by simp⟩⟩

theorem Blind.bind {α β : Type} {f : GoM Env α} {g : α → GoM Env β} (hf : Blind f) (hg : ∀ a, Blind (g a)) : Blind (f >>= g) := by
  intro m
  obtain ⟨r, m', o, h⟩ := hf m
  cases r with
  | ok a =>
    obtain ⟨r2, m2, o2, h2⟩ := hg a m'
    refine ⟨r2, m2, o ++ o2, fun w hw => ?_⟩
    obtain ⟨w', e, hw', ho⟩ := h w hw
    obtain ⟨w2, e2, hw2, ho2⟩ := h2 w' hw'
    exact ⟨w2, by rw [GoM.bind_apply, e]; exact e2, hw2, by rw [ho2, ho, List.append_assoc]⟩
  | err e0 =>
    refine ⟨.err e0, m', o, fun w hw => ?_⟩
    obtain ⟨w', e, hw', ho⟩ := h w hw
    exact ⟨w', by rw [GoM.bind_apply, e], hw', ho⟩
  | panic =>
    refine ⟨.panic, m', o, fun w hw => ?_⟩
    obtain ⟨w', e, hw', ho⟩ := h w hw
    exact ⟨w', by rw [GoM.bind_apply, e], hw', ho⟩
  | diverge =>
    refine ⟨.diverge, m', o, fun w hw => ?_⟩
    obtain ⟨w', e, hw', ho⟩ := h w hw
    exact ⟨w', by rw [GoM.bind_apply, e], hw', ho⟩

/-- An operation on the muxer alone. -/
theorem Blind.local {α : Type} (f : GoM Env α) (g : Muxer → Res α × Muxer) (h : ∀ m w, f ⟨m, w⟩ = ((g m).1, ⟨(g m).2, w⟩)) : Blind f :=
  fun m => ⟨(g m).1, (g m).2, [], fun w hw => ⟨w, h m w, hw, by simp⟩⟩

theorem blind_updPacket (f : Bytes → Res Bytes) : Blind (updPacket f) := by
  refine Blind.local _ (fun m => match f m.tsPacket with
    | .ok b => (.ok (), { m with tsPacket := b }) | .err e => (.err e, m) | .panic => (.panic, m) | .diverge => (.diverge, m)) fun m w => ?_
  simp only [updPacket, GoM.bind_apply, GoM.get, GoM.lift, GoM.set]
  cases f m.tsPacket <;> rfl

theorem blind_bumpCc (t : Int) : Blind (bumpCc t) := by
  refine Blind.local _ (fun m => ((bumpCc t ⟨m, Sink.mem⟩).1, (bumpCc t ⟨m, Sink.mem⟩).2.m)) fun m w => ?_
  simp only [bumpCc, GoM.bind_apply, GoM.get, GoM.set]
  split
  · rfl
  · split <;> rfl

theorem blind_putPcr (dts : Int) (b : Bool) : Blind (putPcr dts b) := by
  rw [putPcr]
  split
  · refine (blind_updPacket _).bind fun _ => (blind_updPacket _).bind fun _ => (blind_updPacket _).bind fun _ => (blind_updPacket _).bind fun _ => ?_
    refine Blind.local _ (fun m => match goIndex m.tsPacket 4 with
      | .ok l => (.ok (4 + (1 + l)), m) | .err e => (.err e, m) | .panic => (.panic, m) | .diverge => (.diverge, m)) fun m w => ?_
    simp only [GoM.bind_apply, GoM.get, GoM.lift]
    cases goIndex m.tsPacket 4 <;> rfl
  · exact Blind.pure _

theorem blind_putStuff (n : Nat) (i : UInt8) : Blind (putStuff n i) := by
  rw [putStuff]
  split
  · exact (blind_updPacket _).bind fun _ => (blind_updPacket _).bind fun _ => Blind.pure _
  · exact Blind.pure _

theorem blind_putHeader (pes : Verif.Ts.Pes) (l : Loop) (i n : UInt8) : Blind (putHeader pes l i n) := by
  rw [putHeader]
  split
  · exact (Blind.lift _).bind fun _ => (blind_updPacket _).bind fun _ => Blind.pure _
  · exact Blind.pure _

theorem blind_putMedia (media : Bytes) (l : Loop) (i n : UInt8) : Blind (putMedia media l i n) := by
  rw [putMedia]
  split
  · split
    · exact Blind.fail _
    · exact (Blind.lift _).bind fun _ => (blind_updPacket _).bind fun _ => Blind.pure _
  · exact Blind.pure _

theorem blind_write (l : Loop) : Blind (do let e ← GoM.get; Env.write e.m.tsPacket; Pure.pure l : GoM Env Loop) := by
  intro m
  refine ⟨.ok l, m, m.tsPacket, fun w hw => ?_⟩
  refine ⟨(Sink.write m.tsPacket w).2, ?_, ?_, ?_⟩
  · simp [GoM.bind_apply, GoM.get, Env.write, Sink.write, hw w.calls]
  · simp [Sink.write, hw w.calls]; exact hw
  · simp [Sink.write, hw w.calls]

theorem blind_muxBody (p : Packet) (key : Bool) (dts : Int) (pes : Verif.Ts.Pes) (l : Loop) : Blind (muxBody p key dts pes l) := by
  rw [muxBody]
  refine (blind_updPacket _).bind fun _ => Blind.bind ?_ fun _ => (blind_bumpCc _).bind fun cc => (blind_updPacket _).bind fun _ =>
    (blind_putPcr _ _).bind fun i => (blind_putStuff _ _).bind fun x => (blind_putHeader _ _ _ _).bind fun y =>
    (blind_putMedia _ _ _ _).bind fun l => blind_write _
  rw [putStart]
  split
  · exact blind_updPacket _
  · exact Blind.pure _

theorem blind_muxLoop (p : Packet) (key : Bool) (dts : Int) (pes : Verif.Ts.Pes) (fuel : Nat) (l : Loop) : Blind (muxLoop p key dts pes fuel l) := by
  induction fuel generalizing l with
  | zero => exact Blind.diverge
  | succ n ih =>
    rw [muxLoop]
    split
    · exact (blind_muxBody _ _ _ _ _).bind fun l => ih l
    · exact Blind.pure _

theorem blind_mux (p : Packet) (dts pts : Int) : Blind (mux p dts pts) := by
  rw [mux]
  refine Blind.bind ?_ fun x => (Blind.lift _).bind fun y => (Blind.lift _).bind fun h => (Blind.lift _).bind fun h => blind_muxLoop _ _ _ _ _ _
  split
  · exact (Blind.lift _).bind fun _ => Blind.pure _
  · split
    · exact Blind.pure _
    · exact Blind.fail _

/-- The same for a call of a mixer method. -/
def BlindOp (o : MixOp) : Prop :=
  ∀ x : Mixer, ∃ (r : Res Unit) (y : Mixer) (out : Bytes), ∀ w : Sink, w.Reliable →
    o.outcome (x.setWriter w) = r ∧ ∃ w' : Sink, o.after (x.setWriter w) = y.setWriter w' ∧ w'.Reliable ∧ w'.out = w.out ++ out

theorem parse_writer (x : Mixer) (w : Sink) (p : Packet) :
    (x.setWriter w).parse p = ((x.parse p).1, (x.parse p).2.1.setWriter w, (x.parse p).2.2) := by
  rw [Mixer.parse, Mixer.parse]
  show (match Parser.parse p ⟨x.parser, Sink.mem⟩ with
    | (.ok (), d) => (Res.ok (), { x.setWriter w with parser := d.p }, { p with media := d.w.out })
    | (r, d) => (r, { x.setWriter w with parser := d.p }, p)) = _
  rcases Parser.parse p ⟨x.parser, Sink.mem⟩ with ⟨r, d⟩
  cases r <;> rfl

theorem mixer_parse_ts (x : Mixer) (p : Packet) : (x.parse p).2.1.setWriter x.ts = (x.parse p).2.1 := by
  rw [Mixer.parse]
  rcases Parser.parse p ⟨x.parser, Sink.mem⟩ with ⟨r, d⟩
  cases r <;> rfl

theorem blindOp_mux (p : Packet) : BlindOp (.mux p) := by
  intro x
  simp only [MixOp.outcome, MixOp.after, Mixer.mux, parse_writer]
  rcases x.parse p with ⟨r, y, q⟩
  cases r with
  | ok u =>
    obtain ⟨r, m', o, h⟩ := blind_mux q y.dts y.pts y.muxer
    refine ⟨r, { y with muxer := m' }, o, fun w hw => ?_⟩
    obtain ⟨w', e, h1, h2⟩ := h w hw
    simp only [Mixer.setWriter, e]
    exact ⟨trivial, w', rfl, h1, h2⟩
  | err e => exact ⟨.err e, y, [], fun w hw => ⟨rfl, w, rfl, hw, by simp⟩⟩
  | panic => exact ⟨.panic, y, [], fun w hw => ⟨rfl, w, rfl, hw, by simp⟩⟩
  | diverge => exact ⟨.diverge, y, [], fun w hw => ⟨rfl, w, rfl, hw, by simp⟩⟩

theorem save_writer (x : Mixer) (w : Sink) (p : Packet) :
    (x.setWriter w).saveHeader p = ((x.saveHeader p).1, (x.saveHeader p).2.1.setWriter w, (x.saveHeader p).2.2) := by
  simp only [Mixer.saveHeader, parse_writer]
  rcases x.parse p with ⟨r, y, q⟩
  cases r <;> rfl

theorem blindOp_save (f : Types → Types) (p : Packet) (x : Mixer) : ∃ (r : Res Unit) (y : Mixer) (out : Bytes), ∀ w : Sink, w.Reliable →
    (Mixer.saveHeader { x.setWriter w with types := f x.types } p).1 = r ∧
    ∃ w' : Sink, (Mixer.saveHeader { x.setWriter w with types := f x.types } p).2.1 = y.setWriter w' ∧ w'.Reliable ∧ w'.out = w.out ++ out := by
  have h := fun w => save_writer { x with types := f x.types } w p
  refine ⟨(Mixer.saveHeader { x with types := f x.types } p).1, (Mixer.saveHeader { x with types := f x.types } p).2.1, [], fun w hw => ?_⟩
  have e : ({ x.setWriter w with types := f x.types } : Mixer) = Mixer.setWriter { x with types := f x.types } w := rfl
  rw [e, h w]
  exact ⟨rfl, w, rfl, hw, by simp⟩

theorem reliable_write (b : Bytes) (w : Sink) (hw : w.Reliable) :
    ∃ w', Sink.write b w = (.ok (), w') ∧ w'.Reliable ∧ w'.out = w.out ++ b := by
  refine ⟨(Sink.write b w).2, ?_, ?_, ?_⟩
  · simp [Sink.write, hw w.calls]
  · simp [Sink.write, hw w.calls]; exact hw
  · simp [Sink.write, hw w.calls]

theorem blindOp_header : BlindOp .header := by
  intro x
  simp only [MixOp.outcome, MixOp.after]
  have e : ∀ w, (x.setWriter w).setTsHeader = match tables x.metadata x.types.toSlice x.muxer with
      | (.ok t, m) => match writeTables t w with
        | (r, w) => (r, { x with muxer := m, ts := w })
      | (.err e, m) => (.err e, { x.setWriter w with muxer := m })
      | (.panic, m) => (.panic, { x.setWriter w with muxer := m })
      | (.diverge, m) => (.diverge, { x.setWriter w with muxer := m }) := fun w => rfl
  simp only [e]
  rcases tables x.metadata x.types.toSlice x.muxer with ⟨r, m⟩
  cases r with
  | ok t =>
    refine ⟨.ok (), { x with muxer := m }, t.1 ++ t.2.1 ++ t.2.2, fun w hw => ?_⟩
    obtain ⟨w1, e1, h1, o1⟩ := reliable_write t.1 w hw
    obtain ⟨w2, e2, h2, o2⟩ := reliable_write t.2.1 w1 h1
    obtain ⟨w3, e3, h3, o3⟩ := reliable_write t.2.2 w2 h2
    have : writeTables t w = (.ok (), w3) := by simp [writeTables, GoM.bind_apply, e1, e2, e3]
    simp only [this]
    exact ⟨trivial, w3, rfl, h3, by rw [o3, o2, o1]; simp⟩
  | err e => exact ⟨.err e, { x with muxer := m }, [], fun w hw => ⟨rfl, w, rfl, hw, by simp⟩⟩
  | panic => exact ⟨.panic, { x with muxer := m }, [], fun w hw => ⟨rfl, w, rfl, hw, by simp⟩⟩
  | diverge => exact ⟨.diverge, { x with muxer := m }, [], fun w hw => ⟨rfl, w, rfl, hw, by simp⟩⟩

theorem update_writer (x : Mixer) (w : Sink) (p : Packet) (a b : UInt32) :
    (x.setWriter w).update p a b = ((x.update p a b).1, (x.update p a b).2.setWriter w) := by
  simp only [Mixer.update, Mixer.setWriter]
  split
  · rfl
  · split
    · cases x.parser.sampleRate with
      | ok rate =>
        simp only
        rcases syncAudioTs (ticks a) rate x.sync with ⟨r, s⟩
        cases r <;> rfl
      | err e => rfl
      | panic => rfl
      | diverge => rfl
    · rfl

theorem blindOp (o : MixOp) (ho : o.Keeps) : BlindOp o := by
  cases o with
  | setWriter w => exact ho.elim
  | mux p => exact blindOp_mux p
  | saveMetadata md => exact fun x => ⟨.ok (), x.saveMetadata md, [], fun w hw => ⟨rfl, w, rfl, hw, by simp⟩⟩
  | saveAVC p => exact fun x => blindOp_save Types.isVideo p x
  | saveAAC p => exact fun x => blindOp_save Types.isAudio p x
  | header => exact blindOp_header
  | update p a b =>
    intro x
    simp only [MixOp.outcome, MixOp.after, update_writer]
    exact ⟨_, (x.update p a b).2, [], fun w hw => ⟨rfl, w, rfl, hw, by simp⟩⟩

theorem blind_inTurn (os : List MixOp) (ho : ∀ o ∈ os, o.Keeps) (x : Mixer) : ∃ (rs : List (Res Unit)) (y : Mixer) (out : Bytes), ∀ w : Sink, w.Reliable →
    (inTurn (x.setWriter w) os).1 = rs ∧ ∃ w' : Sink, (inTurn (x.setWriter w) os).2 = y.setWriter w' ∧ w'.Reliable ∧ w'.out = w.out ++ out := by
  induction os generalizing x with
  | nil => exact ⟨[], x, [], fun w hw => ⟨rfl, w, rfl, hw, by simp⟩⟩
  | cons o os ih =>
    obtain ⟨r, y, out, h⟩ := blindOp o (ho o (by simp)) x
    obtain ⟨rs, z, out', h'⟩ := ih (fun o' h => ho o' (by simp [h])) y
    refine ⟨r :: rs, z, out ++ out', fun w hw => ?_⟩
    obtain ⟨h1, w', h2, h3, h4⟩ := h w hw
    obtain ⟨h1', w'', h2', h3', h4'⟩ := h' w' h3
    simp only [inTurn, h1, h2, h1']
    exact ⟨trivial, w'', h2', h3', by rw [h4', h4, List.append_assoc]⟩

theorem inTurn_append (x : Mixer) (a b : List MixOp) :
    inTurn x (a ++ b) = ((inTurn x a).1 ++ (inTurn (inTurn x a).2 b).1, (inTurn (inTurn x a).2 b).2) := by
  induction a generalizing x with
  | nil => rfl
  | cons o a ih => simp only [List.cons_append, inTurn, ih]

theorem setWriter_setWriter (x : Mixer) (v w : Sink) : (x.setWriter v).setWriter w = x.setWriter w := rfl

/-- C169: if `SetWriter` is called with a new buffer before each segment, the calls have the outcomes that they would have with one
writer for all of them, the buffers one after the other hold what this writer would hold, and nothing else of the mixer is
different.  For every mixer, every sequence of calls with any outcome and every way to cut it. -/
theorem C169_cut (x : Mixer) (w : Sink) (hw : w.Reliable) (oss : List (List MixOp)) (ho : ∀ os ∈ oss, ∀ o ∈ os, o.Keeps) :
    (inTurn (x.setWriter w) oss.flatten).1 = ((inSegments x oss).1.map (·.1)).flatten ∧
    (inTurn (x.setWriter w) oss.flatten).2.ts.out = w.out ++ ((inSegments x oss).1.map (·.2)).flatten ∧
    ∀ v, (inTurn (x.setWriter w) oss.flatten).2.setWriter v = (inSegments x oss).2.setWriter v := by
  induction oss generalizing x w with
  | nil => simp [inTurn, inSegments, Mixer.setWriter]
  | cons os oss ih =>
    obtain ⟨rs, y, out, h⟩ := blind_inTurn os (ho os (by simp)) x
    obtain ⟨h1, w1, e1, hr, o1⟩ := h w hw
    obtain ⟨h2, w2, e2, -, o2⟩ := h Sink.mem (fun _ => rfl)
    have hi := ih y w1 hr (fun os' h' => ho os' (by simp [h']))
    have key : ∀ u : Sink, inSegments (y.setWriter u) oss = ((inSegments y oss).1, if oss = [] then y.setWriter u else (inSegments y oss).2) := by
      intro u
      cases oss with
      | nil => rfl
      | cons a b => simp only [inSegments, setWriter_setWriter]; rfl
    simp only [List.flatten_cons, inTurn_append, h1, e1, inSegments, h2, e2, key, List.map_cons]
    refine ⟨by rw [hi.1], ?_, fun v => ?_⟩
    · rw [hi.2.1, o1]
      show _ = w.out ++ (w2.out ++ _)
      rw [o2]
      simp [Sink.mem]
    · rw [hi.2.2]
      split
      · rename_i h0; subst h0; rfl
      · rfl

/-- C169 (partial): a segment that begins with the tables can be played on its own, at whatever moment it begins: the tables name the
streams and a receiver that has only this segment gets exactly the frames sent since `SetWriter`, each IDR picture with the parameter
sets (see `Live`).  Missing: key frames with short PES packets (`C169_small_key_frame_refuted`). -/
theorem C169_segment_partial {x z : Mixer} (hx : MixReach x) {v a : Bool} (ha : Announced x v a) (hok : (x.setWriter Sink.mem).setTsHeader.1 = .ok ())
    {vs : List VideoUnit} {as : List AudioUnit} (h : Live (x.setWriter Sink.mem).setTsHeader.2 z vs as) :
    Delivered z.ts.out vs as ∧ tune z.ts.out = some ((if v then [(0x1b, 0x100)] else []) ++ (if a then [(0x0f, 0x101)] else [])) := by
  have hr : MixReach (x.setWriter Sink.mem) := MixReach.op hx (.setWriter Sink.mem)
  have ha' : Announced (x.setWriter Sink.mem) v a := .other (.setWriter Sink.mem) ha (fun p => ⟨by simp, by simp⟩)
  obtain ⟨out, h1, h2, h3⟩ := C109_receiver_partial hr (fun _ => rfl) ha' hok h
  have h1 : z.ts.out = out := by rw [h1]; rfl
  rw [h1]
  exact ⟨h2, h3⟩

/-- The code violates the claim for every segment in which a key frame with a PES packet of less than 184 bytes is sent: from 176
bytes on `Mux` panics, and with less the segment has something on the video PID that is not a PES packet. -/
theorem C169_small_key_frame_refuted {x z : Mixer} (hx : MixReach x) {vs : List VideoUnit} {as : List AudioUnit} (h : Live (x.setWriter Sink.mem) z vs as)
    {hs : List (Bytes × Bytes × Bytes)} (hz : MixHist z hs)
    (p : Packet) (ht : p.type = 0) (b0 b2 b3 b4 : UInt8) (nals : List Bytes) (hd : p.data = b0 :: 1 :: b2 :: b3 :: b4 :: avcc nals)
    (hb : b0.toNat / 16 = 1) (hb7 : b0.toNat % 16 = 7)
    (hn : ∀ n ∈ nals, Supported n) (hne : nals ≠ []) (h1 : ∀ n, nals.head? = some n → n.length ≠ 1) (a b : UInt32) (len : Nat)
    (hlen : len = (if 90 * b.toNat % 2 ^ 32 = 0 then 14 else 19) + (accessUnit (annexB (hs.flatMap fun x => [x.1, x.2.1 ++ x.2.2])) nals).length) :
    ∃ q, Flv.demux p = (.ok (), q) ∧ (176 ≤ len ∧ len < 184 → ((z.update q a b).2.mux q).1 = .panic) ∧
      (len < 176 → receive 0x100 ((z.update q a b).2.mux q).2.1.ts.out = none) := by
  obtain ⟨q, h1, h2, h3⟩ := C109_small_key_frame_refuted (MixReach.op hx (.setWriter Sink.mem)) (fun _ => rfl) h hz p ht b0 b2 b3 b4 nals hd hb hb7
    hn hne h1 a b len hlen
  refine ⟨q, h1, h2, fun hl => ?_⟩
  obtain ⟨out, e, h4⟩ := h3 hl
  rw [e]
  exact h4

theorem mixer2_writer : mixer2.setWriter Sink.mem = mixer2 := by
  have e : ∀ (x : Mixer) (p : Packet), (x.saveAVCHeader p).2.1.ts = x.ts := fun x p => (saveHeader_parts { x with types := x.types.isVideo } p).2.2.2.2.2.2.1
  have e' : ∀ (x : Mixer) (p : Packet), (x.saveAACHeader p).2.1.ts = x.ts := fun x p => (saveHeader_parts { x with types := x.types.isAudio } p).2.2.2.2.2.2.1
  have h : mixer2.ts = Sink.mem := by rw [mixer2, e', e]; rfl
  generalize mixer2 = x at h
  rw [Mixer.setWriter, ← h]

/-- A segment with a picture and an AAC frame. -/
example : ∃ z : Mixer, Delivered z.ts.out [⟨3600, 3600, [0, 0, 0, 1, 9, 0xf0, 0, 0, 0, 1, 0x41, 5, 6]⟩] [⟨50, 2, 4, 2, [9, 8, 7]⟩] ∧
    tune z.ts.out = some [(0x1b, 0x100), (0x0f, 0x101)] := by
  obtain ⟨h1, h2, z, h3⟩ := live_mixer2
  rw [← mixer2_writer] at h1 h3
  exact ⟨z, C169_segment_partial reach_mixer2 h2 h1 h3⟩

/-- Two segments: tables and an AAC frame in the first, tables in the second. -/
def twoSegments : List (List MixOp) :=
  [[.header, .mux (hdrPacket 1 ⟨false, false, false, false, false, 0, 0⟩ ⟨10, 1, true, false, false⟩ [9, 8, 7])], [.header]]

example : (inTurn (mixer2.setWriter Sink.mem) twoSegments.flatten).2.ts.out =
    Sink.mem.out ++ ((inSegments mixer2 twoSegments).1.map (·.2)).flatten ∧ (inSegments mixer2 twoSegments).1.map (·.2.length) = [752, 564] :=
  ⟨(C169_cut mixer2 Sink.mem (fun _ => rfl) twoSegments (by simp [twoSegments, MixOp.Keeps])).2.1, by decide +kernel⟩

end Verif.Props
