import Verif.Spec.Relay
import Verif.Props.Flv
import Verif.Props.Gop
/-! # Lemmas about the relay -/
namespace Verif.Relay
open Verif Verif.Amf Verif.Props Verif.Spec.Flv Verif.Spec.Relay Verif.Spec.Gop

/-! ## What the cache makes of the messages -/

/-- The role the cache gives to a kind of message. -/
def toRole : Kind → Role
  | .script => .metadata
  | .videoHdr => .videoHdr
  | .audioHdr => .audioHdr
  | .key => .key
  | .inter => .inter
  | .other => .ignored

theorem toRole_inj {a b : Kind} : toRole a = toRole b ↔ a = b := by
  cases a <;> cases b <;> simp [toRole]

theorem role_video (p : Packet) (h : Header) (v : VideoHdr) (ht : p.type = 0) (hh : p.header = some h) (hv : h.video = some v) :
    role p = if v.isSeqHdr then .videoHdr else if v.isKeyFrame then .key else if v.isInterFrame then .inter else .ignored := by
  unfold role
  rw [if_neg (by omega), if_pos ht, hh]
  simp [hv]

theorem role_audio (p : Packet) (h : Header) (a : AudioHdr) (ht : p.type = 1) (hh : p.header = some h) (ha : h.audio = some a) :
    role p = if a.isSoundAAC ∧ a.isAACSeqHdr then .audioHdr else .ignored := by
  unfold role
  rw [if_neg (by omega), if_neg (by omega), if_pos ht, hh]
  simp [ha]

theorem demux_data (p : Packet) : (Flv.demux p).2.data = p.data ∧ (Flv.demux p).2.type = p.type ∧
    (Flv.demux p).2.timeStamp = p.timeStamp := by
  unfold Flv.demux
  split
  · split <;> exact ⟨rfl, rfl, rfl⟩
  all_goals exact ⟨rfl, rfl, rfl⟩

theorem role_eq (t : TagRec) (h : Valid t) : role (Flv.demux (packetOf t)).2 = toRole (kind t) := by
  cases h with
  | video time payload h1 h2 h3 =>
    rcases payload with _ | ⟨b0, _ | ⟨b1, _ | ⟨b2, _ | ⟨b3, _ | ⟨b4, payload⟩⟩⟩⟩⟩
    · simp at h3
    · simp at h3
    · simp at h3
    · simp at h3
    · simp at h3
    · have hz : (b1 = 0) ↔ b1.toNat = 0 := by rw [← UInt8.toNat_inj]; rfl
      by_cases hf : b0.toNat / 16 = 1 ∨ b0.toNat / 16 = 2
      · obtain ⟨hd, e1, e2⟩ := C07_flv_video_header (packetOf ⟨9, time, b0 :: b1 :: b2 :: b3 :: b4 :: payload⟩) rfl b0 b1 b2 b3 b4 payload rfl hf
        rw [e1, role_video _ hd _ rfl rfl e2]
        simp only [videoAnswers, kind, hz]
        rcases hf with hf | hf <;> by_cases hb : b1.toNat = 0 <;> simp [hf, hb, toRole]
      · obtain ⟨hd, e1, e2⟩ := C07_flv_video_other (packetOf ⟨9, time, b0 :: b1 :: b2 :: b3 :: b4 :: payload⟩) rfl b0 b1 b2 b3 b4 payload rfl hf
        rw [e1, role_video _ hd _ rfl rfl e2]
        have g1 : ¬ b0.toNat / 16 = 1 := fun h => hf (.inl h)
        have g2 : ¬ b0.toNat / 16 = 2 := fun h => hf (.inr h)
        simp [videoAnswers, kind, g1, g2, toRole]
  | audio time b0 b1 payload h1 h2 h3 =>
    obtain ⟨k1, k2, _⟩ := C08_flv_audio_header (packetOf ⟨8, time, b0 :: b1 :: payload⟩) rfl b0 b1 payload rfl
    have hz : (b1 = 0) ↔ b1.toNat = 0 := by rw [← UInt8.toNat_inj]; rfl
    rcases h3 with h3 | h3
    · obtain ⟨hd, e1, e2⟩ := k1 h3
      rw [e1, role_audio _ hd _ rfl rfl e2]
      simp only [audioAnswers, kind, hz]
      by_cases hb : b1.toNat = 0 <;> simp [h3, hb, toRole]
    · obtain ⟨hd, e1, e2⟩ := k2 h3
      rw [e1, role_audio _ hd _ rfl rfl e2]
      simp [audioAnswers, kind, h3, toRole]
  | script time name rest h1 h2 h3 h4 h5 =>
    have := (demux_data (packetOf ⟨18, time, string0 name ++ rest⟩)).2.1
    unfold role
    rw [if_pos (by rw [this]; rfl)]
    rfl
  | frame time name rest h1 h2 h3 h4 h5 =>
    have := (demux_data (packetOf ⟨18, time, string0 frameName ++ (string0 name ++ rest)⟩)).2.1
    unfold role
    rw [if_pos (by rw [this]; rfl)]
    rfl

/-! ## The replay in terms of messages -/

section
variable {P : Type} (f : P → TagRec)

theorem filter_role (k : Kind) (h : History P) (hr : ∀ x ∈ h, role x.2 = toRole (kind (f x.1))) :
    ((h.filter (fun x => role x.2 = toRole k)).map (·.1)).map f = (h.map (fun x => f x.1)).filter (fun t => kind t = k) := by
  induction h with
  | nil => rfl
  | cons x h ih =>
    have hx := hr x (by simp)
    have ih := ih (fun y hy => hr y (by simp [hy]))
    by_cases hk : kind (f x.1) = k
    · rw [List.filter_cons_of_pos (by simp [hx, hk]), List.map_cons, List.map_cons, List.map_cons, ih,
        List.filter_cons_of_pos (by simp [hk])]
    · rw [List.filter_cons_of_neg (by simp [hx, toRole_inj, hk]), List.map_cons, ih, List.filter_cons_of_neg (by simp [hk])]

theorem last_eq (k : Kind) (h : History P) (hr : ∀ x ∈ h, role x.2 = toRole (kind (f x.1))) :
    (last (toRole k) h).map f = latest k (h.map (fun x => f x.1)) := by
  unfold last latest
  rw [← filter_role f k h hr]
  simp only [List.getLast?_map, Option.toList_map, Option.map_map]
  generalize (List.filter (fun x => decide (role x.2 = toRole k)) h).getLast? = o
  cases o <;> rfl

theorem frames_cons (x : P × Packet) (h : History P) : frames (x :: h) =
    (match role x.2 with | .key => [(true, x.1)] | .inter => [(false, x.1)] | _ => []) ++ frames h := by
  unfold frames
  rw [List.filterMap_cons]
  cases role x.2 <;> rfl

theorem tail_eq (h : History P) (hr : ∀ x ∈ h, role x.2 = toRole (kind (f x.1))) :
    (((frames h).takeWhile (fun x => !x.1)).map (·.2)).map f =
      ((h.map (fun x => f x.1)).takeWhile (fun u => kind u ≠ .key)).filter (fun u => kind u = .inter) := by
  induction h with
  | nil => rfl
  | cons x h ih =>
    have hx := hr x (by simp)
    have ih := ih (fun y hy => hr y (by simp [hy]))
    rw [frames_cons, hx, List.map_cons]
    cases hk : kind (f x.1) <;> simp [toRole, List.takeWhile_cons, List.filter_cons, hk, ih] <;> simpa using ih

theorem groups_eq (h : History P) (hr : ∀ x ∈ h, role x.2 = toRole (kind (f x.1))) :
    (groups (frames h)).map (List.map f) = pictureGroups (h.map (fun x => f x.1)) := by
  induction h with
  | nil => rfl
  | cons x h ih =>
    have hx := hr x (by simp)
    have hr' : ∀ y ∈ h, role y.2 = toRole (kind (f y.1)) := fun y hy => hr y (by simp [hy])
    have ih := ih hr'
    have ht := tail_eq f h hr'
    rw [frames_cons, hx, List.map_cons, pictureGroups]
    cases hk : kind (f x.1)
    case key =>
      simp only [toRole, List.singleton_append, groups, List.map_cons, if_true, ih, ht]
    all_goals simp [toRole, groups, ih]

theorem newest_map {α β} (g : α → β) (n : Nat) (l : List α) : (newest n l).map g = newest n (l.map g) := by
  simp [newest, List.map_drop]

theorem replay_eq (n : Nat) (h : History P) (hr : ∀ x ∈ h, role x.2 = toRole (kind (f x.1))) :
    ((replay n h).map f).map delivered = file n (h.map (fun x => f x.1)) := by
  unfold replay file kept
  have e1 := last_eq f .script h hr
  have e2 := last_eq f .videoHdr h hr
  have e3 := last_eq f .audioHdr h hr
  simp only [toRole] at e1 e2 e3
  rw [List.map_append (f := f), List.map_append (f := f), List.map_append (f := f), e1, e2, e3, List.map_flatten, newest_map, List.map_map,
    ← groups_eq f h hr, List.map_map]
  congr 5
  funext l
  simp [List.map_take]
end

/-! ## Muxing -/

theorem run_snoc_op (op : Op) (ops : List Op) (mt : Flv.Mixer × Track) :
    (Spec.Flv.run mdBytes (ops ++ [op]) mt).1 = (call op (Spec.Flv.run mdBytes ops mt).1).2.1 := by
  induction ops generalizing mt with
  | nil => rfl
  | cons o ops ih => exact ih _

theorem reached_call {m : Flv.Mixer} (h : MixerReached m) (op : Op) (hs : op.Small mdBytes) : MixerReached (call op m).2.1 := by
  obtain ⟨w, ops, ho, rfl⟩ := h
  refine ⟨w, ops ++ [op], ?_, (run_snoc_op op ops _).symm⟩
  intro o hm
  rcases List.mem_append.mp hm with hm | hm
  · exact ho o hm
  · rw [List.mem_singleton.mp hm]; exact hs

theorem starts_string (st : St) (name rest : Bytes) (h1 : 1 ≤ name.length) (h2 : name.length < 65536) :
    startsWithString st (string0 name ++ rest) name := by
  have he : Spec.Amf0.Encodable (.str name) := by simp only [Spec.Amf0.Encodable]; omega
  have hw : Spec.Amf0.wire (.str name) = string0 name := by
    simp only [Spec.Amf0.wire, if_pos h2, Spec.Amf0.utf8, string0, List.cons_append]
    congr 2
    simp only [be16, beN]
    have : (UInt16.ofNat name.length).toNat = name.length := by simp; omega
    congr 1
    · apply UInt8.toNat_inj.mp; simp; omega
    · congr 1
      apply UInt8.toNat_inj.mp; simp
  obtain ⟨s', h, _⟩ := Amf0.valCodec.parse (.str name) he
    { st with data := string0 name ++ rest, eofOnEmpty := true, lim := id } rest (fun _ => Nat.le_refl _) (by rw [hw])
    (by intro h; simp [Spec.Amf0.endsEmpty] at h; subst h; simp at h1)
  exact ⟨s', h⟩

theorem frameName_header : string0 frameName = metaHeader := by decide +kernel
theorem frameName_chars : setDataFrameChars = frameName := by decide +kernel

theorem beN2_inj {a b : Nat} (ha : a < 65536) (hb : b < 65536) (h : beN 2 a = beN 2 b) : a = b := by
  simp only [beN, List.cons.injEq, ← UInt8.toNat_inj, UInt8.toNat_ofNat'] at h
  omega

/-- Another string does not begin with "@setDataFrame". -/
theorem not_prefix (name rest : Bytes) (h2 : name.length < 65536) (hne : name ≠ frameName) :
    ¬ string0 frameName <+: string0 name ++ rest := by
  rintro ⟨r, h⟩
  have e : beN 2 frameName.length ++ (frameName ++ r) = beN 2 name.length ++ (name ++ rest) := by
    simpa [string0, List.append_assoc] using h
  have l2 : ∀ n, (beN 2 n).length = 2 := fun n => rfl
  obtain ⟨e1, e2⟩ := List.append_inj e (by rw [l2, l2])
  have e3 := beN2_inj (by decide) h2 e1
  exact hne (List.append_inj e2 e3).1.symm

theorem delivered_keep (time : Nat) (name rest : Bytes) (h2 : name.length < 65536) (hne : name ≠ frameName) :
    delivered ⟨18, time, string0 name ++ rest⟩ = ⟨18, time, string0 name ++ rest⟩ := by
  unfold delivered
  rw [if_neg (fun h => not_prefix name rest h2 hne h.2)]

theorem delivered_strip (time : Nat) (d : Bytes) : delivered ⟨18, time, string0 frameName ++ d⟩ = ⟨18, time, d⟩ := by
  unfold delivered
  rw [if_pos ⟨rfl, List.prefix_append _ _⟩]
  simp

/-- What is known about a packet of the store. -/
structure Holds (t : TagRec) (p : Packet) : Prop where
  type : p.type = (packetOf t).type
  time : p.timeStamp = UInt32.ofNat t.time
  data : p.data = t.payload ∨ p.data = (delivered t).payload

theorem mux_holds (t : TagRec) (hv : Valid t) (p : Packet) (hp : Holds t p) (m : Flv.Mixer) (hm : MixerReached m) (hw : m.flv.Reliable) :
    ∃ m' p', m.mux p p.timeStamp = (.ok (), m', p') ∧ m'.flv.out = m.flv.out ++ (delivered t).bytes ∧ Holds t p' ∧
      MixerReached m' ∧ m'.flv.Reliable := by
  have key : ∀ m' p', p.data.length < 2 ^ 24 → m.mux p p.timeStamp = (.ok (), m', p') → MixerReached m' ∧ m'.flv.Reliable := by
    intro m' p' hl he
    have hc := reached_call hm (.mux p p.timeStamp) hl
    rw [show call (.mux p p.timeStamp) m = m.mux p p.timeStamp from rfl, he] at hc
    refine ⟨hc, ?_⟩
    obtain ⟨tr, hr⟩ := reached_remembers hm
    have := (Flv.mux_run p.timeStamp m.muxer p m.flv hr.good hl).2.2.1
    have e : m'.flv = (Flv.mux p.timeStamp ⟨m.muxer, p, m.flv⟩).2.w := by
      rw [mixer_mux_eq] at he
      have := congrArg (fun x => x.2.1.flv) he
      exact this.symm
    intro k
    rw [e, this]; exact hw k
  have plain : delivered t = t → (t.type = 9 ∨ t.type = 8) → t.payload.length < 2 ^ 24 → t.time < 2 ^ 32 →
      ∃ m' p', m.mux p p.timeStamp = (.ok (), m', p') ∧ m'.flv.out = m.flv.out ++ (delivered t).bytes ∧ Holds t p' ∧
      MixerReached m' ∧ m'.flv.Reliable := by
    intro hdt ht hl htime
    have hdata : p.data = t.payload := by rcases hp.data with h | h <;> rw [h]; rw [hdt]
    have hlen : p.data.length < 2 ^ 24 := by rw [hdata]; exact hl
    have hpt : p.type = 0 ∨ p.type = 1 := by rw [hp.type]; rcases ht with ht | ht <;> simp [packetOf, ht]
    obtain ⟨m', e1, e2⟩ := C11_flv_tag m hm hw p p.timeStamp hlen hpt
    obtain ⟨k1, k2⟩ := key m' p hlen e1
    refine ⟨m', p, e1, ?_, hp, k1, k2⟩
    rw [e2, hdt]
    congr 2
    have : (UInt32.ofNat t.time).toNat = t.time := by simp; omega
    rw [hp.type, hp.time, this, hdata]
    obtain ⟨ty, ti, pl⟩ := t
    simp only at ht
    rcases ht with rfl | rfl <;> rfl
  cases hv with
  | video time payload h1 h2 h3 => exact plain (by simp [delivered]) (.inl rfl) h2 h1
  | audio time b0 b1 payload h1 h2 h3 => exact plain (by simp [delivered]) (.inr rfl) (by simpa using h2) h1
  | script time name rest h1 h2 h3 h4 h5 =>
    have hd := delivered_keep time name rest h4 h5
    have hdata : p.data = string0 name ++ rest := by rcases hp.data with h | h <;> rw [h]; rw [hd]
    have hlen : p.data.length < 2 ^ 24 := by rw [hdata]; exact h2
    obtain ⟨m', e1, e2⟩ := C14_keep m hm hw p p.timeStamp name (by rw [hp.type]; rfl) (by rw [hdata]; exact starts_string _ _ _ h3 h4)
      (by rw [frameName_chars]; exact h5) hlen
    obtain ⟨k1, k2⟩ := key m' p hlen e1
    refine ⟨m', p, e1, ?_, hp, k1, k2⟩
    have : (UInt32.ofNat time).toNat = time := by simp; omega
    rw [e2, hd, hp.time, this, hdata]
  | frame time name rest h1 h2' h3 h4 h5 =>
    have hd := delivered_strip time (string0 name ++ rest)
    have h2 : (string0 name ++ rest).length < 2 ^ 24 := by rw [List.length_append] at h2'; omega
    have ht : (UInt32.ofNat time).toNat = time := by simp; omega
    rcases hp.data with hdata | hdata
    · simp only at hdata
      rw [frameName_header] at hdata
      obtain ⟨m', e1, e2⟩ := C14_strip m hm hw p p.timeStamp (string0 name ++ rest) (by rw [hp.type]; rfl) hdata h2
      have hh : Holds ⟨18, time, string0 frameName ++ (string0 name ++ rest)⟩ { p with data := string0 name ++ rest } :=
        ⟨hp.type, hp.time, .inr (by rw [hd])⟩
      obtain ⟨k1, k2⟩ := key m' _ (by rw [hdata, ← frameName_header]; exact h2') e1
      exact ⟨m', _, e1, by rw [e2, hd, hp.time, ht], hh, k1, k2⟩
    · rw [hd] at hdata
      simp only at hdata
      have hlen : p.data.length < 2 ^ 24 := by rw [hdata]; exact h2
      obtain ⟨m', e1, e2⟩ := C14_keep m hm hw p p.timeStamp name (by rw [hp.type]; rfl) (by rw [hdata]; exact starts_string _ _ _ h3 h4)
        (by rw [frameName_chars]; exact h5) hlen
      obtain ⟨k1, k2⟩ := key m' p hlen e1
      exact ⟨m', p, e1, by rw [e2, hd, hp.time, ht, hdata], hp, k1, k2⟩

/-! ## The server -/

/-- The history of the cache. -/
def hist (ts : List TagRec) : History Nat := ts.zipIdx.map fun x => (x.2, (Flv.demux (packetOf x.1)).2)

theorem hist_snoc (ts : List TagRec) (t : TagRec) :
    hist (ts ++ [t]) = hist ts ++ [(ts.length, (Flv.demux (packetOf t)).2)] := by
  simp [hist, List.zipIdx_append]

structure Inv (c : Gop.Cache Nat) (ts : List TagRec) (s : Server) : Prop where
  len : s.store.length = ts.length
  holds : ∀ (i : Nat) t, ts[i]? = some t → ∃ p, s.store[i]? = some p ∧ Holds t p
  cache : s.cache = Gop.run c (hist ts)

/-- The packets of a list of pointers are delivered. -/
theorem deliver_ok (ts : List TagRec) (hv : ∀ t ∈ ts, Valid t) (is : List Nat) (hi : ∀ i ∈ is, i < ts.length)
    (store : List Packet) (hl : store.length = ts.length)
    (hs : ∀ (i : Nat) t, ts[i]? = some t → ∃ p, store[i]? = some p ∧ Holds t p)
    (m : Flv.Mixer) (hm : MixerReached m) (hw : m.flv.Reliable) :
    ∃ store' m', deliver is store m = (.ok (), store', m') ∧ store'.length = ts.length ∧
      (∀ (i : Nat) t, ts[i]? = some t → ∃ p, store'[i]? = some p ∧ Holds t p) ∧
      m'.flv.out = m.flv.out ++ (is.map fun i => delivered (ts.getD i ⟨0, 0, []⟩)).flatMap TagRec.bytes := by
  induction is generalizing store m with
  | nil => exact ⟨store, m, rfl, hl, hs, by simp⟩
  | cons i is ih =>
    have hlt := hi i (by simp)
    have ht : ts[i]? = some ts[i] := List.getElem?_eq_getElem hlt
    obtain ⟨p, hp, hh⟩ := hs i _ ht
    obtain ⟨m1, p1, e1, e2, hh1, hm1, hw1⟩ := mux_holds ts[i] (hv _ (List.getElem_mem hlt)) p hh m hm hw
    have hs1 : ∀ (j : Nat) t, ts[j]? = some t → ∃ q, (store.set i p1)[j]? = some q ∧ Holds t q := by
      intro j t hj
      rw [List.getElem?_set]
      by_cases hij : i = j
      · subst hij
        rw [ht] at hj
        rw [if_pos rfl, if_pos (by omega)]
        exact ⟨p1, rfl, by rw [← Option.some.inj hj]; exact hh1⟩
      · rw [if_neg hij]; exact hs j t hj
    obtain ⟨st', m', d1, d2, d3, d4⟩ := ih (fun j hj => hi j (by simp [hj])) (store.set i p1) (by simp [hl]) hs1 m1 hm1 hw1
    refine ⟨st', m', ?_, d2, d3, ?_⟩
    · rw [deliver, hp]
      simp only [e1, d1]
    · rw [d4, e2, List.map_cons, List.flatMap_cons, List.append_assoc]
      simp [List.getD_eq_getElem?_getD, ht]

theorem mem_hist (ts : List TagRec) (x : Nat × Packet) (h : x ∈ hist ts) :
    ∃ t, ts[x.1]? = some t ∧ x.2 = (Flv.demux (packetOf t)).2 := by
  simp only [hist, List.mem_map] at h
  obtain ⟨⟨t, i⟩, h1, rfl⟩ := h
  exact ⟨t, List.mem_zipIdx_iff_getElem?.mp h1, rfl⟩

theorem hist_map (ts : List TagRec) : (hist ts).map (fun x => ts.getD x.1 ⟨0, 0, []⟩) = ts := by
  apply List.ext_getElem?
  intro i
  simp only [hist, List.map_map, List.getElem?_map, List.getElem?_zipIdx]
  cases h : ts[i]? with
  | none => rfl
  | some t => simp [List.getD_eq_getElem?_getD, h]

theorem mem_last {P : Type} (r : Role) (h : History P) (x : P) (hx : x ∈ last r h) : ∃ p, (x, p) ∈ h := by
  simp only [last, Option.mem_toList, Option.map_eq_some_iff] at hx
  obtain ⟨⟨a, p⟩, h1, rfl⟩ := hx
  exact ⟨p, (List.mem_filter.mp (List.mem_of_getLast? h1)).1⟩

theorem mem_groups {P : Type} (l : List (Bool × P)) (g : List P) (hg : g ∈ groups l) (x : P) (hx : x ∈ g) : ∃ b, (b, x) ∈ l := by
  induction l with
  | nil => simp [groups] at hg
  | cons y l ih =>
    obtain ⟨b, q⟩ := y
    cases b
    · simp only [groups] at hg
      obtain ⟨b, h⟩ := ih hg
      exact ⟨b, by simp [h]⟩
    · simp only [groups, List.mem_cons] at hg
      rcases hg with rfl | hg
      · simp only [List.mem_cons, List.mem_map] at hx
        rcases hx with rfl | ⟨⟨b, z⟩, hz, rfl⟩
        · exact ⟨true, by simp⟩
        · exact ⟨b, by simp [(List.takeWhile_prefix _).subset hz]⟩
      · obtain ⟨b, h⟩ := ih hg
        exact ⟨b, by simp [h]⟩

theorem mem_frames {P : Type} (h : History P) (b : Bool) (x : P) (hx : (b, x) ∈ frames h) : ∃ p, (x, p) ∈ h := by
  simp only [frames, List.mem_filterMap] at hx
  obtain ⟨⟨y, p⟩, h1, h2⟩ := hx
  refine ⟨p, ?_⟩
  cases hr : role p <;> simp [hr] at h2 <;> rw [← h2.2] <;> exact h1

theorem mem_replay {P : Type} (n : Nat) (h : History P) (x : P) (hx : x ∈ replay n h) : ∃ p, (x, p) ∈ h := by
  simp only [replay, List.mem_append] at hx
  rcases hx with ((hx | hx) | hx) | hx
  · exact mem_last _ _ _ hx
  · exact mem_last _ _ _ hx
  · exact mem_last _ _ _ hx
  · obtain ⟨g, hg, hx⟩ := List.mem_flatten.mp hx
    have hg := List.mem_of_mem_drop hg
    obtain ⟨g', hg', rfl⟩ := List.mem_map.mp hg
    obtain ⟨b, hb⟩ := mem_groups _ g' hg' x (List.mem_of_mem_take hx)
    exact mem_frames _ _ _ hb

theorem fits_delivered (t : TagRec) (h : Valid t) : (delivered t).Fits := by
  cases h with
  | video time payload h1 h2 h3 => rw [show delivered ⟨9, time, payload⟩ = _ by simp [delivered]; rfl]; exact ⟨by simp, h1, h2⟩
  | audio time b0 b1 payload h1 h2 h3 =>
    rw [show delivered ⟨8, time, b0 :: b1 :: payload⟩ = _ by simp [delivered]; rfl]
    exact ⟨by simp, h1, by simpa using h2⟩
  | script time name rest h1 h2 h3 h4 h5 => rw [delivered_keep time name rest h4 h5]; exact ⟨by simp, h1, h2⟩
  | frame time name rest h1 h2 h3 h4 h5 =>
    rw [delivered_strip]
    exact ⟨by simp, h1, by rw [List.length_append] at h2; simp only; omega⟩

/-- A new mixer with the file header written. -/
theorem header_mixer : MixerReached (Flv.Mixer.setFlvHeader (Flv.Mixer.new Sink.mem)).2 ∧
    (Flv.Mixer.setFlvHeader (Flv.Mixer.new Sink.mem)).2.flv.Reliable ∧
    (Flv.Mixer.setFlvHeader (Flv.Mixer.new Sink.mem)).2.flv.out = Spec.Flv.header false false := by
  refine ⟨⟨Sink.mem, [.setFlvHeader], by simp [Op.Small], rfl⟩, fun k => ?_, rfl⟩
  rfl

theorem subscribe_ok (n : Nat) (c : Gop.Cache Nat) (hc : Gop.newCache n = .ok c) (ts : List TagRec) (hv : ∀ t ∈ ts, Valid t)
    (s : Server) (hs : Inv c ts s) :
    s.subscribe.1 = .ok () ∧ readFile s.subscribe.2.1 = some (false, false, file n ts) ∧ Inv c ts s.subscribe.2.2 := by
  have hr : (s.cache.sendTo { out := [] }).2.out = replay n (hist ts) := by
    rw [hs.cache, C02_replay n c hc (hist ts) { out := [] } (fun _ => rfl)]
    simp
  obtain ⟨hm, hw, ho⟩ := header_mixer
  have hi : ∀ i ∈ replay n (hist ts), i < ts.length := by
    intro i h
    obtain ⟨p, h⟩ := mem_replay n _ i h
    obtain ⟨t, h, _⟩ := mem_hist ts _ h
    exact (List.getElem?_eq_some_iff.mp h).1
  obtain ⟨store', m', d1, d2, d3, d4⟩ := deliver_ok ts hv _ hi s.store hs.len hs.holds _ hm hw
  have hf : (replay n (hist ts)).map (fun i => delivered (ts.getD i ⟨0, 0, []⟩)) = file n ts := by
    have := replay_eq (fun i => ts.getD i ⟨0, 0, []⟩) n (hist ts) (by
      intro x hx
      obtain ⟨t, h1, h2⟩ := mem_hist ts x hx
      rw [h2, role_eq t (hv t (List.mem_of_getElem? h1)), List.getD_eq_getElem?_getD, h1, Option.getD_some])
    rw [hist_map, List.map_map] at this
    exact this
  unfold Server.subscribe
  simp only [hr, d1]
  refine ⟨trivial, ?_, ⟨d2, d3, hs.cache⟩⟩
  rw [d4, ho, hf]
  apply readFile_write
  intro t ht
  rw [← hf] at ht
  obtain ⟨i, hii, rfl⟩ := List.mem_map.mp ht
  have := hi i hii
  rw [List.getD_eq_getElem?_getD, List.getElem?_eq_getElem this, Option.getD_some]
  exact fits_delivered _ (hv _ (List.getElem_mem this))

theorem inv_publish (c : Gop.Cache Nat) (ts : List TagRec) (s : Server) (hs : Inv c ts s) (t : TagRec) :
    Inv c (ts ++ [t]) (s.publish t) := by
  obtain ⟨h1, h2, h3⟩ := demux_data (packetOf t)
  refine ⟨by simp [Server.publish, hs.len], ?_, ?_⟩
  · intro i u hu
    simp only [Server.publish]
    by_cases hi : i < ts.length
    · rw [List.getElem?_append_left hi] at hu
      rw [List.getElem?_append_left (by rw [hs.len]; exact hi)]
      exact hs.holds i u hu
    · rw [List.getElem?_append_right (by omega)] at hu
      rw [List.getElem?_append_right (by rw [hs.len]; omega), hs.len]
      rcases hk : i - ts.length with _ | k
      · rw [hk] at hu
        obtain rfl : t = u := by simpa using hu
        exact ⟨_, rfl, h2, h3, .inl h1⟩
      · rw [hk] at hu; simp at hu
  · simp only [Server.publish, hist_snoc, Gop.run_snoc, hs.cache, hs.len]

theorem inv_run (n : Nat) (c : Gop.Cache Nat) (hc : Gop.newCache n = .ok c) (es : List Event) (ts : List TagRec)
    (hv : ∀ t ∈ ts ++ messages es, Valid t) (s : Server) (hs : Inv c ts s) : Inv c (ts ++ messages es) (s.run es) := by
  induction es generalizing ts s with
  | nil => simpa [messages, Server.run] using hs
  | cons e es ih =>
    cases e with
    | publish t =>
      have := ih (ts ++ [t]) (by simpa [messages] using hv) (s.publish t) (inv_publish c ts s hs t)
      simpa [messages, Server.run] using this
    | subscribe =>
      exact ih ts hv _ (subscribe_ok n c hc ts (fun t ht => hv t (by simp [ht])) s hs).2.2

end Verif.Relay
