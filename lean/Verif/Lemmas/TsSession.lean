import Verif.Lemmas.TsTable
/-! # Lemmas about sequences of calls -/
namespace Verif.Ts
open Verif.Spec.Ts (TsPacket Kind Reach Hist Muxed Session pesLen)

theorem pesBytes_length (v : Bool) (p : Packet) (pts dts : Int) : (pesBytes v p.media pts dts).length = pesLen v p pts dts := by
  unfold pesBytes pesLen
  rw [List.length_append, pesHead_length]

theorem pesBytes_ne (v : Bool) (media : Bytes) (pts dts : Int) : pesBytes v media pts dts ≠ [] := by
  intro h
  have := pesHead_pos v media.length pts dts
  have h' := congrArg List.length h
  rw [pesBytes, List.length_append] at h'
  simp only [List.length_nil] at h'
  omega

/-- The sizes for which `Mux` does not panic. -/
def Fits (v key : Bool) (p : Packet) (pts dts : Int) : Prop :=
  key = true → pesLen v p pts dts < 176 ∨ 184 ≤ pesLen v p pts dts

theorem ccOf_lt (v : Bool) {m : Muxer} {a b : Nat} (h : Good m a b) : (ccOf v m).toNat < 16 := by
  cases v
  · exact h.acc
  · exact h.vcc

theorem packets_parse {m : Muxer} {a b : Nat} (hg : Good m a b) {p : Packet} {v key : Bool} {pts dts : Int} (hf : Fits v key p pts dts) :
    ∀ t ∈ packets v key p.media pts dts (ccOf v m), (bytesOf t).length = 188 ∧ Spec.Ts.parsePacket (bytesOf t) = some t := by
  refine cut_length _ _ _ _ _ _ _ ?_ (ccOf_lt v hg)
  intro h
  rw [pesBytes_length]
  exact hf (by simpa using h)

theorem parse_packets (ps : List TsPacket) (h : ∀ t ∈ ps, (bytesOf t).length = 188 ∧ Spec.Ts.parsePacket (bytesOf t) = some t) :
    Spec.Ts.parseStream (ps.map bytesOf).flatten = some ps := by
  have := parseStream_flatten (ps.map fun t => (bytesOf t, t)) (by
    intro x hx
    obtain ⟨t, ht, rfl⟩ := List.mem_map.mp hx
    exact h t ht)
  simpa [List.map_map, Function.comp_def] using this

theorem mux_any {m : Muxer} {a b : Nat} (hg : Good m a b) {p : Packet} {v key : Bool} (hk : Kind p v key) (pts dts : Int)
    (hf : Fits v key p pts dts) (w : Sink) :
    ∃ m', mux p dts pts ⟨m, w⟩ = ((runChunks ((packets v key p.media pts dts (ccOf v m)).map bytesOf) w).1,
        ⟨m', (runChunks ((packets v key p.media pts dts (ccOf v m)).map bytesOf) w).2⟩)
      ∧ After v ((runChunks ((packets v key p.media pts dts (ccOf v m)).map bytesOf) w).2.calls - w.calls) m m' := by
  refine mux_ok p v key dts pts hk ?_ ⟨m, w⟩ hg.len
  intro h
  rw [pesBytes_length]
  exact hf h

theorem mux_reliable {m : Muxer} {a b : Nat} (hg : Good m a b) {p : Packet} {v key : Bool} (hk : Kind p v key) (pts dts : Int)
    (hf : Fits v key p pts dts) (w : Sink) (hw : w.Reliable) :
    ∃ m', mux p dts pts ⟨m, w⟩ = (.ok (), ⟨m', { w with
        out := w.out ++ ((packets v key p.media pts dts (ccOf v m)).map bytesOf).flatten
        calls := w.calls + (packets v key p.media pts dts (ccOf v m)).length }⟩)
      ∧ After v (packets v key p.media pts dts (ccOf v m)).length m m' := by
  obtain ⟨m', h1, h2⟩ := mux_any hg hk pts dts hf w
  refine ⟨m', ?_, ?_⟩
  · rw [h1, runChunks_reliable _ w hw, List.length_map]
  · rw [runChunks_reliable _ w hw] at h2
    simpa using h2

theorem muxed {m : Muxer} {a b : Nat} (hg : Good m a b) {p : Packet} {v key : Bool} (hk : Kind p v key) (pts dts : Int)
    (hf : Fits v key p pts dts) : Muxed m p dts pts (packets v key p.media pts dts (ccOf v m)) := by
  intro w hw
  obtain ⟨m', h1, -⟩ := mux_reliable hg hk pts dts hf w hw
  exact ⟨_, by rw [h1], by rw [h1], parse_packets _ (packets_parse hg hf)⟩

/-- A successful `Mux` was given an audio or video packet of a size that does not panic. -/
theorem mux_ok_kind {m : Muxer} {a b : Nat} (hg : Good m a b) {p : Packet} {pts dts : Int} {w : Sink}
    (hok : (mux p dts pts ⟨m, w⟩).1 = .ok ()) : ∃ v key, Kind p v key ∧ Fits v key p pts dts := by
  by_cases h0 : p.type = 0
  · cases hh : p.asVideo with
    | ok vh =>
      refine ⟨true, vh.isKeyFrame, .video vh h0 hh, ?_⟩
      intro hkey
      by_cases h1 : pesLen true p pts dts < 176
      · exact .inl h1
      by_cases h2 : 184 ≤ pesLen true p pts dts
      · exact .inr h2
      have hk : Kind p true true := hkey ▸ Kind.video vh h0 hh
      have := (mux_panic p dts pts hk (by rw [pesBytes_length]; omega) (by rw [pesBytes_length]; omega) ⟨m, w⟩ hg.len).1
      rw [this] at hok
      simp at hok
    | err e =>
      exfalso
      unfold mux at hok
      rw [if_pos (show p.type = PktVideo from h0), hh] at hok
      simp [GoM.bind_apply] at hok
    | panic =>
      exfalso
      unfold mux at hok
      rw [if_pos (show p.type = PktVideo from h0), hh] at hok
      simp [GoM.bind_apply] at hok
    | diverge =>
      exfalso
      unfold mux at hok
      rw [if_pos (show p.type = PktVideo from h0), hh] at hok
      simp [GoM.bind_apply] at hok
  · by_cases h1 : p.type = 1
    · exact ⟨false, false, .audio h1, by intro h; simp at h⟩
    · exfalso
      unfold mux at hok
      rw [if_neg (show ¬ p.type = PktVideo from h0), if_neg (show ¬ p.type = PktAudio from h1)] at hok
      simp [GoM.bind_apply] at hok

theorem ccOf_bumpN (v : Bool) (k : Nat) (m : Muxer) (h : (ccOf v m).toNat < 16) :
    (ccOf v (bumpN v k m)).toNat = ((ccOf v m).toNat + k) % 16 := by
  induction k generalizing m with
  | zero => simp only [bumpN, Nat.add_zero]; omega
  | succ k ih =>
    have e : ccOf v (bumped v m) = nextCc (ccOf v m) := by cases v <;> rfl
    have hn := nextCc_toNat _ h
    simp only [bumpN]
    rw [ih _ (by rw [e]; omega), e, hn]
    omega

theorem ccOf_bumpN_other (v : Bool) (k : Nat) (m : Muxer) : ccOf (!v) (bumpN v k m) = ccOf (!v) m := by
  induction k generalizing m with
  | zero => rfl
  | succ k ih => rw [bumpN, ih]; cases v <;> rfl

theorem ccOf_after {v : Bool} {k : Nat} {m m' : Muxer} (h : After v k m m') (u : Bool) : ccOf u m' = ccOf u (bumpN v k m) := by
  rw [h.2]; cases u <;> rfl

/-- The packets of one PID have the counters 1, 2, …, 15, 0, 1, … -/
def Counts (pid : Nat) (ps : List TsPacket) : Prop :=
  (ps.filter (·.pid == pid)).map (·.cc) = (List.range (ps.filter (·.pid == pid)).length).map fun i => (i + 1) % 16

/-- The invariant of a session. -/
structure SInv (m : Muxer) (out : Bytes) (ps : List TsPacket) : Prop where
  out : out = (ps.map bytesOf).flatten
  parse : ∀ t ∈ ps, (bytesOf t).length = 188 ∧ Spec.Ts.parsePacket (bytesOf t) = some t
  counts : ∀ v, Counts (pidOf v).toNat ps
  cc : ∀ v, (ccOf v m).toNat = (ps.filter (·.pid == (pidOf v).toNat)).length % 16
  pids : ∀ t ∈ ps, t.pid = 0x100 ∨ t.pid = 0x101

theorem Session.hist {m : Muxer} {out : Bytes} (h : Session m out) : ∃ a b, Hist m a b := by
  induction h with
  | new => exact ⟨0, 0, .new⟩
  | mux p dts pts _ _ ih => obtain ⟨a, b, ih⟩ := ih; exact ⟨a, b, .mux p dts pts _ ih⟩
  | sdt d _ ih => obtain ⟨a, b, ih⟩ := ih; exact ⟨a, b, .sdt d ih⟩
  | pat _ ih => obtain ⟨a, b, ih⟩ := ih; exact ⟨_, _, .pat ih⟩
  | pmt mt _ ih => obtain ⟨a, b, ih⟩ := ih; exact ⟨_, _, .pmt mt ih⟩

theorem filter_all {α} (f : α → Bool) (l : List α) (h : ∀ x ∈ l, f x = true) : l.filter f = l :=
  List.filter_eq_self.mpr h

theorem filter_none {α} (f : α → Bool) (l : List α) (h : ∀ x ∈ l, f x = false) : l.filter f = [] := by
  rw [List.filter_eq_nil_iff]
  intro x hx
  simp [h x hx]

theorem pidOf_ne (v : Bool) : (pidOf (!v)).toNat ≠ (pidOf v).toNat := by cases v <;> decide

theorem SInv.mux {m m' : Muxer} {a b : Nat} (hg : Good m a b) {out : Bytes} {ps : List TsPacket} (h : SInv m out ps)
    {p : Packet} {v key : Bool} (pts dts : Int) (hf : Fits v key p pts dts)
    (ha : After v (packets v key p.media pts dts (ccOf v m)).length m m') :
    SInv m' (out ++ ((packets v key p.media pts dts (ccOf v m)).map bytesOf).flatten) (ps ++ packets v key p.media pts dts (ccOf v m)) := by
  have hp := packets_parse hg hf
  have hpid : ∀ t ∈ packets v key p.media pts dts (ccOf v m), t.pid = (pidOf v).toNat := fun t ht => cut_pid _ _ _ _ _ _ _ t ht
  have hcc : ∀ i t, (packets v key p.media pts dts (ccOf v m))[i]? = some t → t.cc = ((ccOf v m).toNat + 1 + i) % 16 :=
    fun i t ht => cut_cc _ _ _ _ _ _ _ (ccOf_lt v hg) i t ht
  generalize packets v key p.media pts dts (ccOf v m) = qs at *
  have own : qs.filter (·.pid == (pidOf v).toNat) = qs := filter_all _ _ fun t ht => by simp [hpid t ht]
  have other : qs.filter (·.pid == (pidOf (!v)).toNat) = [] := filter_none _ _ fun t ht => by
    rw [hpid t ht]; have := pidOf_ne v; simp only [beq_eq_false_iff_ne]; omega
  refine ⟨by rw [h.out]; simp, ?_, ?_, ?_, ?_⟩
  · intro t ht
    rcases List.mem_append.mp ht with ht | ht
    · exact h.parse t ht
    · exact hp t ht
  · intro u
    have hu := h.counts u
    unfold Counts at hu ⊢
    rw [List.filter_append]
    by_cases e : u = v
    · subst e
      rw [own, List.map_append, hu, List.length_append]
      have hc := h.cc u
      generalize (ps.filter (·.pid == (pidOf u).toNat)).length = n at *
      apply List.ext_getElem?
      intro i
      by_cases hi : i < n
      · rw [List.getElem?_append_left (by simpa using hi)]
        simp [List.getElem?_range, hi, show i < n + qs.length by omega]
      · rw [List.getElem?_append_right (by simp; omega)]
        simp only [List.length_map, List.length_range, List.getElem?_map]
        cases hq : qs[i - n]? with
        | none =>
          have : qs.length ≤ i - n := List.getElem?_eq_none_iff.mp hq
          rw [List.getElem?_eq_none_iff.mpr (by simp; omega)]
          rfl
        | some t =>
          have hl : i - n < qs.length := (List.getElem?_eq_some_iff.mp hq).1
          rw [List.getElem?_range (by omega)]
          simp only [Option.map_some, Option.some.injEq]
          rw [hcc _ _ hq, hc]
          omega
    · have e' : u = !v := by cases u <;> cases v <;> simp_all
      rw [e', other, List.append_nil, ← e']
      exact hu
  · intro u
    rw [ccOf_after ha u, List.filter_append, List.length_append]
    by_cases e : u = v
    · subst e
      rw [ccOf_bumpN _ _ _ (ccOf_lt u hg), own, h.cc u]
      omega
    · have e' : u = !v := by cases u <;> cases v <;> simp_all
      rw [e', ccOf_bumpN_other, other, ← e', h.cc u]
      rfl
  · intro t ht
    rcases List.mem_append.mp ht with ht | ht
    · exact h.pids t ht
    · rw [hpid t ht]; cases v
      · exact .inr rfl
      · exact .inl rfl

theorem SInv.of_cc {m m' : Muxer} {out : Bytes} {ps : List TsPacket} (h : SInv m out ps) (hc : ∀ v, ccOf v m' = ccOf v m) : SInv m' out ps :=
  ⟨h.out, h.parse, h.counts, fun v => by rw [hc v]; exact h.cc v, h.pids⟩

theorem Session.inv {m : Muxer} {out : Bytes} (h : Session m out) : ∃ ps, SInv m out ps := by
  induction h with
  | new => exact ⟨[], rfl, by simp, fun v => rfl, fun v => by cases v <;> rfl, by simp⟩
  | @mux m out p dts pts hs hok ih =>
    obtain ⟨ps, ih⟩ := ih
    obtain ⟨a, b, hh⟩ := Session.hist hs
    have hg := Hist.good hh
    obtain ⟨v, key, hk, hf⟩ := mux_ok_kind hg hok
    obtain ⟨m', h1, h2⟩ := mux_reliable hg hk pts dts hf Sink.mem (fun _ => rfl)
    rw [h1]
    exact ⟨_, ih.mux hg pts dts hf h2⟩
  | @sdt m out d hs ih =>
    obtain ⟨ps, ih⟩ := ih
    refine ⟨ps, ih.of_cc fun v => ?_⟩
    rw [sdt_eq]
    cases sdtBytes d m.sdt <;> cases v <;> rfl
  | @pat m out hs ih =>
    obtain ⟨ps, ih⟩ := ih
    obtain ⟨a, b, hh⟩ := Session.hist hs
    refine ⟨ps, ih.of_cc fun v => ?_⟩
    rw [pat_ok m (Hist.good hh).pat]
    cases v <;> rfl
  | @pmt m out mt hs ih =>
    obtain ⟨ps, ih⟩ := ih
    obtain ⟨a, b, hh⟩ := Session.hist hs
    refine ⟨ps, ih.of_cc fun v => ?_⟩
    have h3 := (pmt_any mt m (Hist.good hh).pmt).2.2
    exact (congrArg (ccOf v) h3 : _) ▸ (by cases v <;> rfl)

end Verif.Ts
