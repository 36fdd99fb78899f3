import Verif.Spec.FlvSegments
import Verif.Props.Flv
/-!
# Property C170: a recording can be continued in another file
-/
namespace Verif.Props
open Verif Verif.Amf Verif.Flv Verif.Spec.Flv

/-- Except for what it has received, the writer makes no difference to the operation. -/
def BlindTo {ρ σ α : Type} (put : ρ → Sink → σ) (f : GoM σ α) : Prop :=
  ∀ m, ∃ (r : Res α) (m' : ρ) (o : Bytes), ∀ w : Sink, w.Reliable →
    ∃ w' : Sink, f (put m w) = (r, put m' w') ∧ w'.Reliable ∧ w'.out = w.out ++ o

theorem BlindTo.bind {ρ σ α β : Type} {put : ρ → Sink → σ} {f : GoM σ α} {g : α → GoM σ β} (hf : BlindTo put f) (hg : ∀ a, BlindTo put (g a)) :
    BlindTo put (f >>= g) := by
  intro m
  obtain ⟨r, m', o, h⟩ := hf m
  cases r with
  | ok a =>
    obtain ⟨r2, m2, o2, h2⟩ := hg a m'
    refine ⟨r2, m2, o ++ o2, fun w hw => ?_⟩
    obtain ⟨w', e, hw', ho⟩ := h w hw
    obtain ⟨w2, e2, hw2, ho2⟩ := h2 w' hw'
    exact ⟨w2, by rw [GoM.bind_apply, e]; exact e2, hw2, by rw [ho2, ho, List.append_assoc]⟩
  | err e0 =>
    refine ⟨.err e0, m', o, fun w hw => ?_⟩
    obtain ⟨w', e, hw', ho⟩ := h w hw
    exact ⟨w', by rw [GoM.bind_apply, e], hw', ho⟩
  | panic =>
    refine ⟨.panic, m', o, fun w hw => ?_⟩
    obtain ⟨w', e, hw', ho⟩ := h w hw
    exact ⟨w', by rw [GoM.bind_apply, e], hw', ho⟩
  | diverge =>
    refine ⟨.diverge, m', o, fun w hw => ?_⟩
    obtain ⟨w', e, hw', ho⟩ := h w hw
    exact ⟨w', by rw [GoM.bind_apply, e], hw', ho⟩

theorem BlindTo.lift {ρ σ α : Type} {put : ρ → Sink → σ} (r : Res α) : BlindTo put (GoM.lift r : GoM σ α) :=
  fun m => ⟨r, m, [], fun w hw => ⟨w, rfl, hw, by simp⟩⟩

theorem reliable_append (b : Bytes) (w : Sink) (hw : w.Reliable) :
    ∃ w', Sink.write b w = (.ok (), w') ∧ w'.Reliable ∧ w'.out = w.out ++ b := by
  refine ⟨(Sink.write b w).2, ?_, ?_, ?_⟩
  · simp [Sink.write, hw w.calls]
  · simp [Sink.write, hw w.calls]; exact hw
  · simp [Sink.write, hw w.calls]

/-- What `mux` works on, with a writer. -/
def envWith (m : Muxer × Packet) (w : Sink) : MuxEnv := ⟨m.1, m.2, w⟩

theorem blindTo_write (b : Bytes) : BlindTo envWith (MuxEnv.write b) := fun m => ⟨.ok (), m, b, fun w hw => by
  obtain ⟨w', e, h1, h2⟩ := reliable_append b w hw
  exact ⟨w', by simp only [MuxEnv.write, envWith, e], h1, h2⟩⟩

theorem blindTo_prepare : BlindTo envWith prepare := by
  intro m
  have h := fun w => prepare_eq (envWith m w)
  have e : ∀ w, (envWith m w).p = m.2 := fun w => rfl
  simp only [e] at h
  cases hp : prep m.2 with
  | ok p' => exact ⟨_, (m.1, p'), [], fun w hw => ⟨w, by rw [h, hp]; rfl, hw, by simp⟩⟩
  | err x => exact ⟨.err x, m, [], fun w hw => ⟨w, by rw [h, hp], hw, by simp⟩⟩
  | panic => exact ⟨.panic, m, [], fun w hw => ⟨w, by rw [h, hp], hw, by simp⟩⟩
  | diverge => exact ⟨.diverge, m, [], fun w hw => ⟨w, by rw [h, hp], hw, by simp⟩⟩

/-- `mux` behind `prepare`, of what is there then. -/
def afterPrepare (typeID pts : UInt32) (m : Muxer × Packet) : GoM MuxEnv Unit := do
  let h ← GoM.lift (putU32 m.1.tagHdr 0 ((typeID <<< 24) + (UInt32.ofNat m.2.data.length &&& 0x00ffffff)))
  let h ← GoM.lift (putU32 h 4 (((pts &&& 0x00ffffff) <<< 8) + (pts >>> 24)))
  GoM.modify (fun e => { e with m := { e.m with tagHdr := h } })
  MuxEnv.write h
  MuxEnv.write m.2.data
  let h' ← GoM.lift (putU32 h 0 (11 + UInt32.ofNat m.2.data.length))
  GoM.modify (fun e => { e with m := { e.m with tagHdr := h' } })
  let s ← GoM.lift (goSlice h' 0 4)
  MuxEnv.write s

theorem blindTo_tagHdr (h : Bytes) : BlindTo envWith (GoM.modify (fun e => { e with m := { e.m with tagHdr := h } })) :=
  fun m => ⟨.ok (), ({ m.1 with tagHdr := h }, m.2), [], fun w hw => ⟨w, rfl, hw, by simp⟩⟩

theorem blindTo_afterPrepare (t pts : UInt32) (m : Muxer × Packet) : BlindTo envWith (afterPrepare t pts m) :=
  (BlindTo.lift _).bind fun _ => (BlindTo.lift _).bind fun _ => (blindTo_tagHdr _).bind fun _ => (blindTo_write _).bind fun _ =>
    (blindTo_write _).bind fun _ => (BlindTo.lift _).bind fun _ => (blindTo_tagHdr _).bind fun _ => (BlindTo.lift _).bind fun _ => blindTo_write _

theorem blindTo_mux (pts : UInt32) : BlindTo envWith (Flv.mux pts) := by
  unfold Flv.mux
  refine BlindTo.bind blindTo_prepare fun t => ?_
  intro m
  obtain ⟨r, m', o, h⟩ := blindTo_afterPrepare t pts m m
  refine ⟨r, m', o, fun w hw => ?_⟩
  obtain ⟨w', e, h1, h2⟩ := h w hw
  refine ⟨w', ?_, h1, h2⟩
  rw [← e]
  simp only [GoM.bind_apply, GoM.get, afterPrepare, envWith]
  cases h1 : putU32 m.1.tagHdr 0 ((t <<< 24) + (UInt32.ofNat m.2.data.length &&& 0x00ffffff)) with
  | ok a =>
    simp only [GoM.lift]
    cases h2 : putU32 a 4 (((pts &&& 0x00ffffff) <<< 8) + (pts >>> 24)) with
    | ok b => rfl
    | _ => rfl
  | _ => rfl

/-- The writer makes no difference to a call, except for what it receives. -/
def BlindCall (o : Op) : Prop :=
  ∀ x : Flv.Mixer, ∃ (r : Res Unit) (p : Packet) (y : Flv.Mixer) (out : Bytes), ∀ w : Sink, w.Reliable →
    ∃ w' : Sink, call o (x.setWriter w) = (r, y.setWriter w', p) ∧ w'.Reliable ∧ w'.out = w.out ++ out

/-- A mixer with another writer. -/
def mixWith (x : Flv.Mixer) (w : Sink) : Flv.Mixer := x.setWriter w

theorem blindTo_mixWrite (b : Bytes) : BlindTo mixWith (Flv.Mixer.write b) := fun m => ⟨.ok (), m, b, fun w hw => by
  obtain ⟨w', e, h1, h2⟩ := reliable_append b w hw
  exact ⟨w', by simp only [Flv.Mixer.write, mixWith, Flv.Mixer.setWriter, e], h1, h2⟩⟩

theorem blindTo_cached (b : Bytes) : BlindTo mixWith (Flv.Mixer.writeCached b) := by
  unfold Flv.Mixer.writeCached
  split
  · exact blindTo_mixWrite b
  · exact fun m => ⟨.ok (), m, [], fun w hw => ⟨w, rfl, hw, by simp⟩⟩

/-- `SetFlvHeader` behind the header, of what is there then. -/
def afterHeader (r : Res Bytes) (x : Flv.Mixer) : GoM Flv.Mixer Unit := do
  let h ← GoM.lift r
  Flv.Mixer.write h
  Flv.Mixer.writeCached x.metadata
  Flv.Mixer.writeCached x.avcSeqHdr
  Flv.Mixer.writeCached x.aacSeqHdr

theorem blindTo_header : BlindTo mixWith Flv.Mixer.setFlvHeader := by
  intro x
  have hb : BlindTo mixWith (afterHeader (Flv.header x.types.toSlice x.muxer).1 x) :=
    (BlindTo.lift _).bind fun _ => (blindTo_mixWrite _).bind fun _ => (blindTo_cached _).bind fun _ => (blindTo_cached _).bind fun _ => blindTo_cached _
  obtain ⟨r, m', o, h⟩ := hb { x with muxer := (Flv.header x.types.toSlice x.muxer).2 }
  exact ⟨r, m', o, h⟩

theorem blindCall (o : Op) (ho : o.Keeps) : BlindCall o := by
  cases o with
  | setWriter w => exact ho.elim
  | mux p pts =>
    intro x
    obtain ⟨r, m', o, h⟩ := blindTo_mux pts (x.muxer, p)
    refine ⟨r, m'.2, { x with muxer := m'.1 }, o, fun w hw => ?_⟩
    obtain ⟨w', e, h1, h2⟩ := h w hw
    refine ⟨w', ?_, h1, h2⟩
    show Flv.Mixer.mux p pts (x.setWriter w) = _
    simp only [Flv.Mixer.mux]
    have e' : Flv.mux pts { m := (x.setWriter w).muxer, p := p, w := (x.setWriter w).flv } = _ := e
    rw [e']
    rfl
  | saveMetadata md =>
    intro x
    refine ⟨(x.saveMetadata md).1, { type := 0 }, (x.saveMetadata md).2, [], fun w hw => ⟨w, ?_, hw, by simp⟩⟩
    simp only [call, Flv.Mixer.saveMetadata, Flv.Mixer.setWriter]
    cases (Flv.metadata md x.muxer).1 <;> rfl
  | saveAVCHeader p =>
    exact fun x => ⟨(x.saveAVCHeader p).1, (x.saveAVCHeader p).2.2, (x.saveAVCHeader p).2.1, [], fun w hw => ⟨w, rfl, hw, by simp⟩⟩
  | saveAACHeader p =>
    exact fun x => ⟨(x.saveAACHeader p).1, (x.saveAACHeader p).2.2, (x.saveAACHeader p).2.1, [], fun w hw => ⟨w, rfl, hw, by simp⟩⟩
  | setFlvHeader =>
    intro x
    obtain ⟨r, m', o, h⟩ := blindTo_header x
    refine ⟨r, { type := 0 }, m', o, fun w hw => ?_⟩
    obtain ⟨w', e, h1, h2⟩ := h w hw
    refine ⟨w', ?_, h1, h2⟩
    simp only [call]
    have e' : Flv.Mixer.setFlvHeader (x.setWriter w) = _ := e
    rw [e']
    rfl

theorem blind_calls (os : List Op) (ho : ∀ o ∈ os, o.Keeps) (x : Flv.Mixer) :
    ∃ (rs : List (Res Unit × Packet)) (y : Flv.Mixer) (out : Bytes), ∀ w : Sink, w.Reliable →
      ∃ w' : Sink, Spec.Flv.inTurn (x.setWriter w) os = (rs, y.setWriter w') ∧ w'.Reliable ∧ w'.out = w.out ++ out := by
  induction os generalizing x with
  | nil => exact ⟨[], x, [], fun w hw => ⟨w, rfl, hw, by simp⟩⟩
  | cons o os ih =>
    obtain ⟨r, p, y, out, h⟩ := blindCall o (ho o (by simp)) x
    obtain ⟨rs, z, out', h'⟩ := ih (fun o' h => ho o' (by simp [h])) y
    refine ⟨(r, p) :: rs, z, out ++ out', fun w hw => ?_⟩
    obtain ⟨w', h2, h3, h4⟩ := h w hw
    obtain ⟨w'', h2', h3', h4'⟩ := h' w' h3
    simp only [Spec.Flv.inTurn, h2, h2']
    exact ⟨w'', rfl, h3', by rw [h4', h4, List.append_assoc]⟩

theorem calls_append (x : Flv.Mixer) (a b : List Op) :
    Spec.Flv.inTurn x (a ++ b) = ((Spec.Flv.inTurn x a).1 ++ (Spec.Flv.inTurn (Spec.Flv.inTurn x a).2 b).1, (Spec.Flv.inTurn (Spec.Flv.inTurn x a).2 b).2) := by
  induction a generalizing x with
  | nil => rfl
  | cons o a ih => simp only [List.cons_append, Spec.Flv.inTurn, ih]

/-- C170: if `SetWriter` is called with a new buffer before each part of a recording, the calls have the outcomes and leave the packets
that they would with one writer for all of them, the buffers one after the other hold what this writer would hold, and nothing else of
the mixer is different.  For every mixer, every sequence of calls with any outcome and every way to cut it. -/
theorem C170_cut (x : Flv.Mixer) (w : Sink) (hw : w.Reliable) (oss : List (List Op)) (ho : ∀ os ∈ oss, ∀ o ∈ os, o.Keeps) :
    (Spec.Flv.inTurn (x.setWriter w) oss.flatten).1 = ((inFiles x oss).1.map (·.1)).flatten ∧
    (Spec.Flv.inTurn (x.setWriter w) oss.flatten).2.flv.out = w.out ++ ((inFiles x oss).1.map (·.2)).flatten ∧
    ∀ v, (Spec.Flv.inTurn (x.setWriter w) oss.flatten).2.setWriter v = (inFiles x oss).2.setWriter v := by
  induction oss generalizing x w with
  | nil => simp [Spec.Flv.inTurn, inFiles, Flv.Mixer.setWriter]
  | cons os oss ih =>
    obtain ⟨rs, y, out, h⟩ := blind_calls os (ho os (by simp)) x
    obtain ⟨w1, e1, hr, o1⟩ := h w hw
    obtain ⟨w2, e2, -, o2⟩ := h Sink.mem (fun _ => rfl)
    have hi := ih y w1 hr (fun os' h' => ho os' (by simp [h']))
    have key : ∀ u : Sink, inFiles (y.setWriter u) oss = ((inFiles y oss).1, if oss = [] then y.setWriter u else (inFiles y oss).2) := by
      intro u
      cases oss with
      | nil => rfl
      | cons a b => rfl
    simp only [List.flatten_cons, calls_append, e1, inFiles, e2, key, List.map_cons]
    refine ⟨by rw [hi.1], ?_, fun v => ?_⟩
    · rw [hi.2.1, o1]
      show _ = w.out ++ (w2.out ++ _)
      rw [o2]
      simp [Sink.mem]
    · rw [hi.2.2]
      split
      · rename_i h0; subst h0; rfl
      · rfl

theorem run_append (a b : List Op) (mt : Flv.Mixer × Track) : run mdBytes (a ++ b) mt = run mdBytes b (run mdBytes a mt) := by
  induction a generalizing mt with
  | nil => rfl
  | cons o a ih => exact ih _

theorem run_muxes (ps : List (Packet × UInt32)) (mt : Flv.Mixer × Track) :
    (run mdBytes (ps.map fun q => Op.mux q.1 q.2) mt).2.base = mt.2.base ∧
    (run mdBytes (ps.map fun q => Op.mux q.1 q.2) mt).2.items = mt.2.items ++ (tagsOf mt.1 ps).map .tag := by
  induction ps generalizing mt with
  | nil => simp [run, tagsOf]
  | cons q ps ih =>
    obtain ⟨p, pts⟩ := q
    simp only [List.map_cons, run, tagsOf]
    rw [(ih _).1, (ih _).2]
    simp only [Track.step]
    split <;> simp

theorem run_inTurn (os : List Op) (mt : Flv.Mixer × Track) : (run mdBytes os mt).1 = (Spec.Flv.inTurn mt.1 os).2 := by
  induction os generalizing mt with
  | nil => rfl
  | cons o os ih => exact ih _

/-- C170: whatever happened before, on whatever writers (a full disk, a closed connection), a file that is begun with `SetWriter` and
`SetFlvHeader` is complete: a reader gets the flags of the streams, the tags that were saved last, and then exactly the tags of the
packets muxed since. -/
theorem C170_file (w0 : Sink) (ops : List Op) (hs : ∀ op ∈ ops, op.Small mdBytes) (ps : List (Packet × UInt32))
    (hp : ∀ q ∈ ps, q.1.data.length < 2 ^ 24) :
    ∃ x y : Flv.Mixer, Flv.Mixer.setFlvHeader ((run mdBytes ops (start w0)).1.setWriter Sink.mem) = (.ok (), x) ∧
      (Spec.Flv.inTurn x (ps.map fun q => Op.mux q.1 q.2)).2 = y ∧
      readFile y.flv.out = some (savedAVC ops, savedAAC ops, (run mdBytes ops (start w0)).2.saved ++ tagsOf x ps) := by
  obtain ⟨x, hx, -⟩ := C13_flv_header w0 Sink.mem ops hs (fun _ => rfl)
  refine ⟨x, _, hx, rfl, ?_⟩
  have hr := remembers_run ops (start w0) (remembers_new w0) hs
  obtain ⟨f1, f2⟩ := run_flags ops (start w0)
  generalize run mdBytes ops (start w0) = mt at *
  have hr' : Remembers (mt.1.setWriter Sink.mem) { mt.2 with base := [], items := [] } := ⟨hr.good, hr.hdr, hr.types, hr.script, hr.avc, hr.aac, hr.fits⟩
  have hw' : Wrote (mt.1.setWriter Sink.mem) { mt.2 with base := [], items := [] } := ⟨fun _ => rfl, rfl, by simp⟩
  have ho : ∀ op ∈ Op.setFlvHeader :: ps.map (fun q => Op.mux q.1 q.2), op.Small mdBytes ∧ op.Reliable := by
    intro op h
    rcases List.mem_cons.1 h with rfl | h
    · exact ⟨trivial, trivial⟩
    · obtain ⟨q, hq, rfl⟩ := List.mem_map.1 h
      exact ⟨hp q hq, trivial⟩
  have k := wrote_run _ (mt.1.setWriter Sink.mem, { mt.2 with base := [], items := [] }) hr' hw' ho
  have hc : call .setFlvHeader (mt.1.setWriter Sink.mem) = (.ok (), x, { type := 0 }) := by simp only [call, hx]
  have e1 := k.out
  have e2 := k.fits
  rw [show run encMd = run mdBytes from rfl] at e1 e2
  simp only [run, hc] at e1 e2
  obtain ⟨b1, b2⟩ := run_muxes ps (x, Track.step mdBytes { mt.2 with base := [], items := [] } .setFlvHeader (okRes (.ok ())) { type := 0 })
  have b3 := run_inTurn (ps.map fun q => Op.mux q.1 q.2) (x, Track.step mdBytes { mt.2 with base := [], items := [] } .setFlvHeader (okRes (.ok ())) { type := 0 })
  rw [b3, b1, b2] at e1
  rw [b2] at e2
  rw [show (Spec.Flv.inTurn x (ps.map fun q => Op.mux q.1 q.2)).2.flv.out = _ from e1]
  simp only [Track.step] at e2 ⊢
  have hv : mt.2.video = savedAVC ops := by simpa [start] using f1
  have hu : mt.2.audio = savedAAC ops := by simpa [start] using f2
  rw [← hv, ← hu]
  have := readFile_write mt.2.video mt.2.audio (mt.2.saved ++ tagsOf x ps) (fun t ht => e2 t (by
    rcases List.mem_append.1 ht with h | h
    · have h' : t ∈ ({ mt.2 with base := [], items := [] } : Track).saved := h
      simp [h']
    · simp [h]))
  rw [← this]
  congr 1
  simp [List.flatMap_def, Item.bytes, Function.comp_def, Track.saved]

/-- A camera has sent its sequence header, then the disk is full. -/
def sampleCalls : List Op :=
  [.saveAVCHeader { type := 0, data := [0x17, 0, 0, 0, 0, 1] }, .setWriter { out := [], plan := fun _ => some 0 }, .setFlvHeader,
    .mux { type := 0, data := [0x27, 1, 0, 0, 0, 5] } 40]

/-- The next file is complete. -/
example : ∃ x y : Flv.Mixer, Flv.Mixer.setFlvHeader ((run mdBytes sampleCalls (start Sink.mem)).1.setWriter Sink.mem) = (.ok (), x) ∧
      (Spec.Flv.inTurn x ([(({ type := 0, data := [0x27, 1, 0, 0, 0, 7] } : Packet), (80 : UInt32))].map fun q => Op.mux q.1 q.2)).2 = y ∧
      readFile y.flv.out = some (true, false, (run mdBytes sampleCalls (start Sink.mem)).2.saved ++
        tagsOf x [({ type := 0, data := [0x27, 1, 0, 0, 0, 7] }, 80)]) :=
  C170_file Sink.mem sampleCalls (by simp [sampleCalls, Op.Small]) _ (by simp)

example : ((Flv.Mixer.setFlvHeader ((run mdBytes (sampleCalls.take 2) (start Sink.mem)).1)).1 matches .err _) = true ∧
    (run mdBytes sampleCalls (start Sink.mem)).2.saved = [⟨9, 0, [0x17, 0, 0, 0, 0, 1]⟩] ∧
    tagsOf (Flv.Mixer.new Sink.mem) [({ type := 0, data := [0x27, 1, 0, 0, 0, 7] }, 80), ({ type := 7, data := [] }, 80), ({ type := 1, data := [9] }, 81)] =
      [⟨9, 80, [0x27, 1, 0, 0, 0, 7]⟩, ⟨8, 81, [9]⟩] := by decide +kernel

example (x : Flv.Mixer) := C170_cut x Sink.mem (fun _ => rfl)
  [[.setFlvHeader, .mux { type := 0, data := [0x17, 1, 0, 0, 0, 5] } 0], [], [.setFlvHeader, .mux { type := 1, data := [0xaf, 1, 7] } 23]]
  (by simp [Op.Keeps])

end Verif.Props
