import Verif.Lemmas.Flv
import Verif.Spec.FlvHistory
import Verif.Props.Amf0
/-! # Lemmas about the FLV mixer -/
namespace Verif.Amf

/-- `m` only writes, stopping at the first failing write, and then returns or fails. -/
def Wr {α} (m : GoM Sink α) : Prop := ∃ cs r, Emits m cs r ∧ ((∃ a, r = .ok a) ∨ ∃ e, r = .err e)

namespace Wr
variable {α β : Type}
theorem of {m : GoM Sink α} {cs a} (h : Emits m cs (.ok a)) : Wr m := ⟨cs, _, h, .inl ⟨a, rfl⟩⟩
theorem bind {m : GoM Sink α} {f : α → GoM Sink β} (h : Wr m) (hf : ∀ a, Wr (f a)) : Wr (m >>= f) := by
  obtain ⟨cs, r, h, ⟨a, rfl⟩ | ⟨e, rfl⟩⟩ := h
  · obtain ⟨ds, r', h', hr⟩ := hf a
    exact ⟨_, _, h.bind h', hr⟩
  · exact ⟨_, _, h.bind_err, .inr ⟨e, rfl⟩⟩
theorem pure (a : α) : Wr (Pure.pure a : GoM Sink α) := of (Emits.pure a)
theorem fail (e : Err) : Wr (GoM.fail e : GoM Sink α) := ⟨_, _, Emits.fail e, .inr ⟨e, rfl⟩⟩
theorem write (b : Bytes) : Wr (Sink.write b) := of (Emits.write b)
theorem writeByte (b : UInt8) : Wr (Amf.writeByte b) := of (Emits.writeByte b)
end Wr

theorem runChunks_single (c : Bytes) : runChunks [c] = Sink.write c := by
  funext w
  simp only [runChunks, GoM.bind_apply, Sink.write]
  cases w.plan w.calls <;> rfl

/-- A successful chunk sequence made no failing `Write` call. -/
theorem runChunks_ok_calls (cs : List Bytes) (w : Sink) (h : (runChunks cs w).1 = .ok ()) :
    ∀ k, w.calls ≤ k → k < (runChunks cs w).2.calls → w.plan k = none := by
  induction cs generalizing w with
  | nil => intro k h1 h2; simp [runChunks] at h2; omega
  | cons c cs ih =>
    simp only [runChunks, GoM.bind_apply, Sink.write] at h ⊢
    cases hp : w.plan w.calls with
    | some n => rw [hp] at h; simp at h
    | none =>
      rw [hp] at h
      intro k h1 h2
      by_cases hk : k = w.calls
      · rw [hk]; exact hp
      · exact ih { w with out := w.out ++ c, calls := w.calls + 1 } h k (by simp; omega) h2
end Verif.Amf

namespace Verif.Amf0
open Verif.Amf

mutual
theorem wr_enc : (v : Val) → Wr (enc v)
  | .nil => .of (emits_marker 5)
  | .bool b => .of (emits_bool b)
  | .f64 f => .of (emits_number f)
  | .int _ i => .of (emits_number _)
  | .uint _ n => .of (emits_number _)
  | .str s => by
    unfold enc
    split
    · exact .of (emits_string s true)
    · exact .of (emits_longString s true)
  | .arr xs => (Wr.writeByte _).bind fun _ => (Wr.write _).bind fun _ => (wr_encL xs).bind fun _ => .pure _
  | .bytes b => (Wr.writeByte _).bind fun _ => (Wr.write _).bind fun _ =>
      (let ⟨_, _, h⟩ := emits_bytes b; Wr.of h).bind fun _ => .pure _
  | .obj kvs => (Wr.of (emits_opt 3 true)).bind fun _ => (wr_encF kvs).bind fun _ => .pure _
  | .typed t kvs => (Wr.writeByte _).bind fun _ => (Wr.of (emits_string t false)).bind fun _ => (wr_encF kvs).bind fun _ => .pure _
  | .time t => .of (emits_date t)
  | .ecma _ _ => .fail _
  | .shared _ => .fail _
  | .other => .fail _
theorem wr_encL : (vs : List Val) → Wr (encL vs)
  | [] => .pure _
  | v :: vs => (wr_enc v).bind fun _ => (wr_encL vs).bind fun _ => .pure _
theorem wr_encF : (kvs : List (Bytes × Val)) → Wr (encObj kvs)
  | [] => (Wr.of (emits_string [] false)).bind fun _ => (Wr.writeByte _).bind fun _ => .pure _
  | (k, v) :: r => (Wr.of (emits_string k false)).bind fun _ => (wr_enc v).bind fun _ => (wr_encF r).bind fun _ => .pure _
end
end Verif.Amf0

namespace Verif.Flv
open Verif.Amf Verif.Spec.Flv Verif.Props

theorem tagType_tagOf (p : Packet) (n : Nat) : tagOf p n = ⟨tagType p.type, n, p.data⟩ := rfl

/-- `mux` with any writer. -/
theorem mux_run (pts : UInt32) (m : Muxer) (p : Packet) (w : Sink) (hg : Good m) (hs : p.data.length < 2 ^ 24) :
    Good (mux pts ⟨m, p, w⟩).2.m ∧ (mux pts ⟨m, p, w⟩).2.m.flvHdr = m.flvHdr ∧
    (mux pts ⟨m, p, w⟩).2.w.plan = w.plan ∧
    (okRes (mux pts ⟨m, p, w⟩).1 = true →
      (mux pts ⟨m, p, w⟩).2.w.out = w.out ++ (tagOf (mux pts ⟨m, p, w⟩).2.p pts.toNat).bytes ∧
      (tagOf (mux pts ⟨m, p, w⟩).2.p pts.toNat).Fits) ∧
    (w.Reliable → okRes (mux pts ⟨m, p, w⟩).1 = false → (mux pts ⟨m, p, w⟩).2.w.out = w.out) := by
  obtain ⟨h1, h2, h3, h4⟩ := mux_eq pts ⟨m, p, w⟩ hg
  cases hp : prep p with
  | err x => rw [h1 x hp]; exact ⟨hg, rfl, rfl, by simp [okRes], fun _ _ => rfl⟩
  | panic => rw [h2 hp]; exact ⟨hg, rfl, rfl, by simp [okRes], fun _ _ => rfl⟩
  | diverge => rw [h3 hp]; exact ⟨hg, rfl, rfl, by simp [okRes], fun _ _ => rfl⟩
  | ok p' =>
    obtain ⟨m', hg', hf, he⟩ := h4 p' hp
    obtain ⟨k1, k2, k3, k4⟩ := prep_ok p p' hp
    have hl : p'.data.length < 2 ^ 24 := by
      rcases k3 with k3 | ⟨_, n, k3⟩
      · rw [k3]; exact hs
      · rw [k3, List.length_drop]; omega
    simp only at he
    rw [he]
    obtain ⟨r1, q, q', r2, r3, r4⟩ := runChunks_any (chunks (UInt32.ofNat (tagType p.type)) pts p'.data) w
    have ht : tagType p'.type = tagType p.type := by rw [k1]
    refine ⟨hg', hf, r1, fun ho => ?_, fun hw ho => ?_⟩
    · rcases r4 with ⟨_, rfl⟩ | r4
      · refine ⟨?_, ?_⟩
        · simp only [r3, tagType_tagOf, ht]
          rw [← chunks_flatten p.type pts p'.data hl, r2, List.append_nil]
        · refine ⟨?_, pts.toNat_lt, hl⟩
          rw [tagType_tagOf]
          exact tagType_lt _
      · simp only [r4, okRes] at ho; exact absurd ho (by simp)
    · rw [runChunks_reliable _ _ hw] at ho
      simp [okRes] at ho

/-- `metadata`. -/
theorem metadata_run (md : List (Bytes × Val)) (m : Muxer) (hg : Good m)
    (hs : (amf0Bytes (.obj md)).length < 2 ^ 24 - 13) :
    Good (metadata md m).2 ∧ (metadata md m).2.flvHdr = m.flvHdr ∧
    ((metadata md m).1 = .ok (TagRec.mk 18 0 (Spec.Flv.onMetaData (amf0Bytes (.obj md)))).bytes ∨
      ∃ e, (metadata md m).1 = .err e) := by
  obtain ⟨cs, r, hc, hr⟩ := Amf0.wr_enc (.obj md)
  have hb : amf0Bytes (.obj md) = cs.flatten := by
    unfold amf0Bytes; exact hc.mem.2
  have ha := Amf0.emits_string Amf0.setDataFrame true
  have ho := Amf0.emits_string onMetaData true
  have ha' : Emits (Amf0.encode (.str Amf0.setDataFrame)) [[2], be16 (UInt16.ofNat Amf0.setDataFrame.length), Amf0.setDataFrame] _ := ha
  have ho' : Emits (Amf0.encode (.str onMetaData)) [[2], be16 (UInt16.ofNat onMetaData.length), onMetaData] _ := ho
  have hc' : Emits (Amf0.encode (.obj md)) cs r := hc
  rcases hr with ⟨n, rfl⟩ | ⟨e, rfl⟩
  · have hpool : Emits (metadataPool md) _ _ := ha'.bind (ho'.bind (hc'.bind (Emits.pure ())))
    have hm := hpool.mem
    generalize hx : metadataPool md Sink.mem = x at hm
    obtain ⟨xr, xw⟩ := x
    obtain ⟨rfl, hout⟩ := hm
    have hd : xw.out = metaHeader ++ Spec.Flv.onMetaData (amf0Bytes (.obj md)) := by
      refine hout.trans ?_
      rw [hb]
      simp only [List.append_nil, List.flatten_append, Spec.Flv.onMetaData]
      rw [← List.append_assoc, ← List.append_assoc]
      congr 1
    have hprep : prep { type := PktMetadata, data := xw.out } =
        .ok { type := PktMetadata, data := Spec.Flv.onMetaData (amf0Bytes (.obj md)) } := by
      unfold prep
      rw [if_neg (by simp [PktMetadata]), if_pos (by rfl), hd, C28_del_header]
    obtain ⟨m', hg', hf, he⟩ := (mux_eq 0 ⟨m, { type := PktMetadata, data := xw.out }, Sink.mem⟩ hg).2.2.2 _ hprep
    rw [runChunks_reliable _ _ Sink.mem_reliable] at he
    have hl : (Spec.Flv.onMetaData (amf0Bytes (.obj md))).length < 2 ^ 24 := by
      simp only [Spec.Flv.onMetaData, List.length_append, List.length_cons, List.length_nil]; omega
    simp only [metadata, hx, he]
    refine ⟨hg', hf, .inl ?_⟩
    rw [show Sink.mem.out = [] from rfl, List.nil_append]
    exact congrArg _ (chunks_flatten PktMetadata 0 _ hl)
  · have hpool : Emits (metadataPool md) _ _ := ha'.bind (ho'.bind (hc'.bind_err))
    have hm := hpool.mem
    generalize hx : metadataPool md Sink.mem = x at hm
    obtain ⟨xr, xw⟩ := x
    obtain ⟨rfl, hout⟩ := hm
    simp only [metadata, hx]
    exact ⟨hg, trivial, .inr ⟨e, rfl⟩⟩

/-- The bits of `Types`. -/
def bits (v a : Bool) : UInt8 := (if v then 1 else 0) + (if a then 2 else 0)

/-- `header` rewrites the flags, whatever they were. -/
theorem header_run (v a v' a' : Bool) (tagHdr : Bytes) :
    header (Types.toSlice ⟨bits v a⟩) ⟨Spec.Flv.header v' a', tagHdr⟩ =
      (.ok (Spec.Flv.header v a), ⟨Spec.Flv.header v a, tagHdr⟩) := by
  cases v <;> cases a <;> cases v' <;> cases a' <;> rfl

/-- The account is right about what the mixer remembers. -/
structure Remembers (m : Mixer) (t : Track) : Prop where
  good : Good m.muxer
  hdr : ∃ v a, m.muxer.flvHdr = Spec.Flv.header v a
  types : m.types = ⟨bits t.video t.audio⟩
  script : m.metadata = (t.script.map TagRec.bytes).getD []
  avc : m.avcSeqHdr = (t.avc.map TagRec.bytes).getD []
  aac : m.aacSeqHdr = (t.aac.map TagRec.bytes).getD []
  fits : ∀ x ∈ t.saved, x.Fits

theorem remembers_new (w : Sink) : Remembers (start w).1 (start w).2 :=
  ⟨good_new, ⟨false, false, rfl⟩, rfl, rfl, rfl, rfl, by simp [start, Track.saved]⟩

theorem writeCached_eq (o : Option TagRec) (m : Mixer) :
    Mixer.writeCached ((o.map TagRec.bytes).getD []) m =
      ((runChunks (o.map TagRec.bytes).toList m.flv).1, { m with flv := (runChunks (o.map TagRec.bytes).toList m.flv).2 }) := by
  cases o with
  | none => rfl
  | some t =>
    simp only [Option.map_some, Option.getD_some, Option.toList_some, Mixer.writeCached]
    rw [if_pos (by simp [TagRec.bytes])]
    rw [runChunks_single]
    rfl

/-- What `SetFlvHeader` writes. -/
def hdrChunks (t : Track) : List Bytes := Spec.Flv.header t.video t.audio :: t.saved.map TagRec.bytes

theorem hdrChunks_eq (t : Track) : hdrChunks t = [Spec.Flv.header t.video t.audio] ++ (t.script.map TagRec.bytes).toList ++
    (t.avc.map TagRec.bytes).toList ++ (t.aac.map TagRec.bytes).toList := by
  simp [hdrChunks, Track.saved, Option.toList_map]

theorem setFlvHeader_eq (m : Mixer) (t : Track) (h : Remembers m t) :
    Mixer.setFlvHeader m = ((runChunks (hdrChunks t) m.flv).1,
      { m with muxer := { m.muxer with flvHdr := Spec.Flv.header t.video t.audio }, flv := (runChunks (hdrChunks t) m.flv).2 }) := by
  obtain ⟨v', a', hh⟩ := h.hdr
  have hm : m.muxer = ⟨Spec.Flv.header v' a', m.muxer.tagHdr⟩ := by rw [← hh]
  unfold Mixer.setFlvHeader
  simp only [GoM.bind_apply, GoM.get_apply, GoM.set_apply, GoM.lift_apply]
  rw [h.types, hm, header_run]
  simp only [h.script, h.avc, h.aac, hdrChunks_eq, runChunks_append, runChunks_single, GoM.bind_apply]
  unfold Mixer.write
  rcases hw : Sink.write (Spec.Flv.header t.video t.audio) m.flv with ⟨r, w⟩
  cases r with
  | err e => rfl
  | panic => rfl
  | diverge => rfl
  | ok u =>
    simp only [writeCached_eq]
    rcases hw2 : runChunks (t.script.map TagRec.bytes).toList w with ⟨r2, w2⟩
    cases r2 with
    | err e => rfl
    | panic => rfl
    | diverge => rfl
    | ok u =>
      simp only [writeCached_eq]
      rcases hw3 : runChunks (t.avc.map TagRec.bytes).toList w2 with ⟨r3, w3⟩
      cases r3 with
      | err e => rfl
      | panic => rfl
      | diverge => rfl
      | ok u => simp only [writeCached_eq]

theorem bits_video (v a : Bool) : bits v a ||| 1 = bits true a := by cases v <;> cases a <;> rfl
theorem bits_audio (v a : Bool) : bits v a ||| 2 = bits v true := by cases v <;> cases a <;> rfl

/-- AMF0 bytes of a metadata object. -/
abbrev encMd (md : List (Bytes × Val)) : Bytes := amf0Bytes (.obj md)

theorem remembers_step (m : Mixer) (t : Track) (op : Op) (h : Remembers m t) (hs : op.Small encMd) :
    Remembers (call op m).2.1 (t.step encMd op (okRes (call op m).1) (call op m).2.2) := by
  cases op with
  | setWriter w => exact ⟨h.good, h.hdr, h.types, h.script, h.avc, h.aac, h.fits⟩
  | mux p pts =>
    obtain ⟨h1, h2, _⟩ := mux_run pts m.muxer p m.flv h.good hs
    have : ∀ t', t'.script = t.script → t'.avc = t.avc → t'.aac = t.aac → t'.video = t.video → t'.audio = t.audio →
        Remembers (call (.mux p pts) m).2.1 t' := by
      intro t' e1 e2 e3 e4 e5
      refine ⟨h1, ?_, ?_, ?_, ?_, ?_, ?_⟩
      · rw [show (call (.mux p pts) m).2.1.muxer.flvHdr = m.muxer.flvHdr from h2]; exact h.hdr
      · rw [e4, e5]; exact h.types
      · rw [e1]; exact h.script
      · rw [e2]; exact h.avc
      · rw [e3]; exact h.aac
      · unfold Track.saved; rw [e1, e2, e3]; exact h.fits
    simp only [Track.step]
    split <;> exact this _ rfl rfl rfl rfl rfl
  | saveMetadata md =>
    obtain ⟨h1, h2, h3⟩ := metadata_run md m.muxer h.good hs
    have hfit : (TagRec.mk 18 0 (Spec.Flv.onMetaData (encMd md))).Fits := by
      refine ⟨by show 18 < 256; decide, by show 0 < 2 ^ 32; decide, ?_⟩
      have : (encMd md).length < 2 ^ 24 - 13 := hs
      simp only [Spec.Flv.onMetaData, List.length_append, List.length_cons, List.length_nil]; omega
    rcases h3 with h3 | ⟨e, h3⟩
    · have hc : call (.saveMetadata md) m = (.ok (), { m with
          muxer := (metadata md m.muxer).2, metadata := (TagRec.mk 18 0 (Spec.Flv.onMetaData (encMd md))).bytes }, { type := 0 }) := by
        simp only [call, Mixer.saveMetadata, h3]
      rw [hc]
      refine ⟨h1, h2 ▸ h.hdr, h.types, rfl, h.avc, h.aac, ?_⟩
      intro x hx
      simp only [Track.step, okRes, if_true, Track.saved, Option.toList_some, List.append_assoc, List.mem_append, List.mem_singleton] at hx
      rcases hx with rfl | hx
      · exact hfit
      · exact h.fits x (by simp only [Track.saved, List.append_assoc, List.mem_append]; exact .inr hx)
    · have hc : call (.saveMetadata md) m = (.err e, { m with muxer := (metadata md m.muxer).2, metadata := [] }, { type := 0 }) := by
        simp only [call, Mixer.saveMetadata, h3]
      rw [hc]
      refine ⟨h1, h2 ▸ h.hdr, h.types, rfl, h.avc, h.aac, ?_⟩
      intro x hx
      apply h.fits x
      simp [Track.step, okRes, Track.saved] at hx ⊢
      exact .inr hx
  | saveAVCHeader p =>
    obtain ⟨h1, h2, _, h4, h5⟩ := mux_run 0 m.muxer p Sink.mem h.good hs
    have hc : call (.saveAVCHeader p) m = ((mux 0 ⟨m.muxer, p, Sink.mem⟩).1, { m with
        types := m.types.isVideo, muxer := (mux 0 ⟨m.muxer, p, Sink.mem⟩).2.m,
        avcSeqHdr := (mux 0 ⟨m.muxer, p, Sink.mem⟩).2.w.out }, (mux 0 ⟨m.muxer, p, Sink.mem⟩).2.p) := rfl
    rw [hc]
    simp only [Track.step]
    refine ⟨h1, h2 ▸ h.hdr, ?_, h.script, ?_, h.aac, ?_⟩
    · simp only [Types.isVideo, h.types, bits_video]
    · cases ho : okRes (mux 0 ⟨m.muxer, p, Sink.mem⟩).1 with
      | true =>
        simp only [if_true, Option.map_some, Option.getD_some]
        exact (h4 ho).1
      | false => exact h5 Sink.mem_reliable ho
    · intro x hx
      simp only [Track.saved, List.append_assoc, List.mem_append] at hx
      rcases hx with hx | hx | hx
      · exact h.fits x (by simp only [Track.saved, List.append_assoc, List.mem_append]; exact .inl hx)
      · cases ho : okRes (mux 0 ⟨m.muxer, p, Sink.mem⟩).1 with
        | true =>
          rw [ho] at hx
          simp only [if_true, Option.toList_some, List.mem_singleton] at hx
          rw [hx]
          exact (h4 ho).2
        | false => rw [ho] at hx; simp at hx
      · exact h.fits x (by simp only [Track.saved, List.append_assoc, List.mem_append]; exact .inr (.inr hx))
  | saveAACHeader p =>
    obtain ⟨h1, h2, _, h4, h5⟩ := mux_run 0 m.muxer p Sink.mem h.good hs
    have hc : call (.saveAACHeader p) m = ((mux 0 ⟨m.muxer, p, Sink.mem⟩).1, { m with
        types := m.types.isAudio, muxer := (mux 0 ⟨m.muxer, p, Sink.mem⟩).2.m,
        aacSeqHdr := (mux 0 ⟨m.muxer, p, Sink.mem⟩).2.w.out }, (mux 0 ⟨m.muxer, p, Sink.mem⟩).2.p) := rfl
    rw [hc]
    simp only [Track.step]
    refine ⟨h1, h2 ▸ h.hdr, ?_, h.script, h.avc, ?_, ?_⟩
    · simp only [Types.isAudio, h.types, bits_audio]
    · cases ho : okRes (mux 0 ⟨m.muxer, p, Sink.mem⟩).1 with
      | true =>
        simp only [if_true, Option.map_some, Option.getD_some]
        exact (h4 ho).1
      | false => exact h5 Sink.mem_reliable ho
    · intro x hx
      simp only [Track.saved, List.append_assoc, List.mem_append] at hx
      rcases hx with hx | hx | hx
      · exact h.fits x (by simp only [Track.saved, List.append_assoc, List.mem_append]; exact .inl hx)
      · exact h.fits x (by simp only [Track.saved, List.append_assoc, List.mem_append]; exact .inr (.inl hx))
      · cases ho : okRes (mux 0 ⟨m.muxer, p, Sink.mem⟩).1 with
        | true =>
          rw [ho] at hx
          simp only [if_true, Option.toList_some, List.mem_singleton] at hx
          rw [hx]
          exact (h4 ho).2
        | false => rw [ho] at hx; simp at hx
  | setFlvHeader =>
    simp only [call, setFlvHeader_eq m t h, Track.step]
    exact ⟨h.good, ⟨_, _, rfl⟩, h.types, h.script, h.avc, h.aac, h.fits⟩

/-- The account is right about the writer. -/
structure Wrote (m : Mixer) (t : Track) : Prop where
  reliable : m.flv.Reliable
  out : m.flv.out = t.base ++ t.items.flatMap Item.bytes
  fits : ∀ x, .tag x ∈ t.items → x.Fits

theorem wrote_step (m : Mixer) (t : Track) (op : Op) (h : Remembers m t) (hs : op.Small encMd) (hw : Wrote m t)
    (hr : op.Reliable) : Wrote (call op m).2.1 (t.step encMd op (okRes (call op m).1) (call op m).2.2) := by
  cases op with
  | setWriter w => exact ⟨hr, by simp [call, Track.step, Mixer.setWriter], by simp [Track.step]⟩
  | mux p pts =>
    obtain ⟨_, _, h3, h4, h5⟩ := mux_run pts m.muxer p m.flv h.good hs
    have hc : call (.mux p pts) m = ((mux pts ⟨m.muxer, p, m.flv⟩).1, { m with
        muxer := (mux pts ⟨m.muxer, p, m.flv⟩).2.m, flv := (mux pts ⟨m.muxer, p, m.flv⟩).2.w }, (mux pts ⟨m.muxer, p, m.flv⟩).2.p) := rfl
    rw [hc]
    simp only [Track.step]
    have hrel : Sink.Reliable (mux pts ⟨m.muxer, p, m.flv⟩).2.w := fun k => by rw [h3]; exact hw.reliable k
    cases ho : okRes (mux pts ⟨m.muxer, p, m.flv⟩).1 with
    | false => exact ⟨hrel, (h5 hw.reliable ho).trans hw.out, hw.fits⟩
    | true =>
      refine ⟨hrel, ?_, ?_⟩
      · simp only [if_true, (h4 ho).1, hw.out, List.flatMap_append, List.append_assoc, List.flatMap_cons, List.flatMap_nil,
          List.append_nil, Item.bytes]
      · intro x hx
        simp only [if_true, List.mem_append, List.mem_singleton] at hx
        rcases hx with hx | hx
        · exact hw.fits x hx
        · rw [Item.tag.inj hx]; exact (h4 ho).2
  | saveMetadata md =>
    have hflv : (call (.saveMetadata md) m).2.1.flv = m.flv := by
      simp only [call, Mixer.saveMetadata]
      split <;> rfl
    exact ⟨hflv ▸ hw.reliable, hflv ▸ hw.out, hw.fits⟩
  | saveAVCHeader p => exact ⟨hw.reliable, hw.out, hw.fits⟩
  | saveAACHeader p => exact ⟨hw.reliable, hw.out, hw.fits⟩
  | setFlvHeader =>
    simp only [call, setFlvHeader_eq m t h, Track.step]
    rw [runChunks_reliable _ _ hw.reliable]
    refine ⟨hw.reliable, ?_, ?_⟩
    · simp [hw.out, hdrChunks, List.flatMap_def, Item.bytes, Function.comp_def]
    · intro x hx
      simp only [List.mem_append, List.mem_cons, List.mem_map] at hx
      rcases hx with hx | hx | ⟨y, hy, hx⟩
      · exact hw.fits x hx
      · exact absurd hx (by simp)
      · rw [← Item.tag.inj hx]; exact h.fits y hy

theorem remembers_run (ops : List Op) (mt : Mixer × Track) (h : Remembers mt.1 mt.2) (hs : ∀ op ∈ ops, op.Small encMd) :
    Remembers (run encMd ops mt).1 (run encMd ops mt).2 := by
  induction ops generalizing mt with
  | nil => exact h
  | cons op ops ih =>
    exact ih _ (remembers_step mt.1 mt.2 op h (hs op (by simp))) (fun o ho => hs o (by simp [ho]))

theorem wrote_run (ops : List Op) (mt : Mixer × Track) (h : Remembers mt.1 mt.2) (hw : Wrote mt.1 mt.2)
    (hs : ∀ op ∈ ops, op.Small encMd ∧ op.Reliable) : Wrote (run encMd ops mt).1 (run encMd ops mt).2 := by
  induction ops generalizing mt with
  | nil => exact hw
  | cons op ops ih =>
    exact ih _ (remembers_step mt.1 mt.2 op h (hs op (by simp)).1) (wrote_step mt.1 mt.2 op h (hs op (by simp)).1 hw (hs op (by simp)).2)
      (fun o ho => hs o (by simp [ho]))

theorem wrote_new (w : Sink) (hw : w.Reliable) : Wrote (start w).1 (start w).2 :=
  ⟨hw, by simp [start, Mixer.new], by simp [start]⟩

end Verif.Flv
