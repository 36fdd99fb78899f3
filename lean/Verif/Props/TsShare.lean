import Verif.Spec.TsShare
import Verif.Props.TsAgain
/-!
# Property C134: the media of a packet stays what it is when other packets are muxed
-/
namespace Verif.Props
open Verif Verif.Ts Verif.Spec.Ts Verif.Spec.Es

/-! ## Buffers -/

theorem Buf.Write.bytes {b c : Buf} {bs : Bytes} (h : Buf.Write b bs c) (hl : b.len ≤ b.arr.length) :
    c.bytes = b.bytes ++ bs ∧ c.len ≤ c.arr.length := by
  cases h with
  | reslice h =>
    have e : (b.arr.take b.len ++ bs).length = b.len + bs.length := by simp [Nat.min_eq_left hl]
    constructor
    · simp only [Buf.bytes]
      rw [← e, List.take_left]
    · simp only [List.length_append, List.length_take, List.length_drop]; omega
  | grow spare h =>
    have e : (b.arr.take b.len ++ bs).length = b.len + bs.length := by simp [Nat.min_eq_left hl]
    constructor
    · simp only [Buf.bytes]
      rw [← e, List.take_left]
    · simp only [List.length_append, List.length_take]; omega

theorem Buf.Writes.bytes {b c : Buf} {cs : List Bytes} (h : Buf.Writes b cs c) (hl : b.len ≤ b.arr.length) :
    c.bytes = b.bytes ++ cs.flatten ∧ c.len ≤ c.arr.length := by
  induction h with
  | nil b => exact ⟨by simp, hl⟩
  | cons h _ ih =>
    obtain ⟨h1, h2⟩ := Buf.Write.bytes h hl
    obtain ⟨h3, h4⟩ := ih h2
    exact ⟨by rw [h3, h1]; simp, h4⟩

theorem Buf.Writes.inPlace {b c : Buf} {cs : List Bytes} (h : Buf.Writes b cs c) (hl : b.len + cs.flatten.length ≤ b.arr.length) :
    c.old = b.old ∧ c.arr = b.arr.take b.len ++ cs.flatten ++ b.arr.drop (b.len + cs.flatten.length) := by
  induction h with
  | nil b => simp
  | @cons b c d bs r h _ ih =>
    simp only [List.flatten_cons, List.length_append] at hl
    cases h with
    | reslice h =>
      have e : (b.arr.take b.len ++ bs).length = b.len + bs.length := by simp; omega
      obtain ⟨h1, h2⟩ := ih (by simp only [List.length_append, List.length_take, List.length_drop]; omega)
      refine ⟨h1, ?_⟩
      rw [h2]
      simp only
      have f : (b.arr.take b.len ++ bs ++ b.arr.drop (b.len + bs.length)).take (b.len + bs.length) = b.arr.take b.len ++ bs := by
        rw [← e, List.take_left]
      have g : (b.arr.take b.len ++ bs ++ b.arr.drop (b.len + bs.length)).drop (b.len + bs.length + r.flatten.length) =
          b.arr.drop (b.len + (bs.length + r.flatten.length)) := by
        rw [List.drop_append, List.drop_eq_nil_of_le (by omega), List.drop_drop, List.nil_append]
        congr 1; omega
      rw [f, g]
      simp
    | grow spare h => omega

theorem Buf.array_now (b : Buf) : b.array b.old.length = b.arr := by
  simp [Buf.array, List.getD]

/-! ## Sharing without harm -/

/-- The packet after a `Mux` whose parsing fails. -/
theorem mux_packet_err (x : Mixer) (p : Packet) (h : (Parser.parse p ⟨x.parser, Sink.mem⟩).1 ≠ .ok ()) : (x.mux p).2.2 = p := by
  unfold Mixer.mux Mixer.parse
  rcases hr : Parser.parse p ⟨x.parser, Sink.mem⟩ with ⟨_ | e | _ | _, d⟩
  · rw [hr] at h; exact absurd rfl h
  all_goals rfl

theorem saveHeader_packet_err (x : Mixer) (p : Packet) (h : (Parser.parse p ⟨x.parser, Sink.mem⟩).1 ≠ .ok ()) : (x.saveHeader p).2.2 = p := by
  unfold Mixer.saveHeader Mixer.parse
  rcases hr : Parser.parse p ⟨x.parser, Sink.mem⟩ with ⟨_ | e | _ | _, d⟩
  · rw [hr] at h; exact absurd rfl h
  all_goals rfl

/-- The world with shared buffers stands for the one without. -/
structure Same (w : World) (s : Plain) (hist : List (Nat × Nat)) : Prop where
  mix : ∀ k, (w.mixers k).mixer = s.mixers k
  pkt : ∀ i, { (w.packets i).pkt with media := [] } = { s.packets i with media := [] }
  med : ∀ i, ((w.packets i).view = none ∧ w.read i = s.packets i) ∨
    ∃ k, (k, i) ∈ hist ∧ (hist.find? (fun c => c.1 == k) = some (k, i) →
      (w.packets i).view = some ⟨k, (w.mixers k).buf.old.length, (w.mixers k).buf.len⟩ ∧ w.read i = s.packets i)

theorem Same.read {w : World} {s : Plain} {hist : List (Nat × Nat)} (h : Same w s hist) {i : Nat} (hc : Current hist i) : w.read i = s.packets i := by
  rcases h.med i with h | ⟨k, h1, h2⟩
  · exact h.2
  · exact (h2 (hc k h1)).2

/-- The history behind a call. -/
def muxed (hist : List (Nat × Nat)) : Call → List (Nat × Nat)
  | .mux k i => (k, i) :: hist
  | _ => hist

theorem packet_ext {p q : Packet} (h : { p with media := [] } = { q with media := [] }) (hm : p.media = q.media) : p = q := by
  cases p; cases q
  simp only [Packet.mk.injEq] at *
  simp_all

theorem read_own (w : World) (i : Nat) (h : (w.packets i).view = none) : w.read i = (w.packets i).pkt := by
  unfold World.read
  rw [h]

theorem read_pkt (w : World) (i : Nat) : { w.read i with media := [] } = { (w.packets i).pkt with media := [] } := by
  unfold World.read
  split <;> rfl

theorem Same.step {w v : World} {s : Plain} {hist : List (Nat × Nat)} (h : Same w s hist) {c : Call} {r : Res Unit} (hs : World.Step w c r v)
    (hc : ∀ i, packetOf c = some i → Current hist i) : r = (s.step c).1 ∧ Same v (s.step c).2 (muxed hist c) := by
  cases hs with
  | mux k i chunks b own hb hout =>
    have hcur := hc i rfl
    have hrd := h.read hcur
    have hk := h.mix k
    have hnot : ∀ k0, (k0, i) ∈ hist → (∃ v, (w.packets i).view = some v ∧ v.mixer = k0 ∧ v.gen = (w.mixers k0).buf.old.length) → k0 ≠ k := by
      rintro k0 - ⟨v, h1, h2, h3⟩ rfl
      exact own v h1 h2 h3
    have hbuf := Buf.Writes.bytes hb (Nat.zero_le _)
    have hother : ∀ j k0, k0 ≠ k → (∃ v, (w.packets j).view = some v ∧ v.mixer = k0) →
        ∀ v' : World, v'.mixers k0 = w.mixers k0 → v'.packets j = w.packets j → v'.read j = w.read j := by
      rintro j k0 - ⟨v, h1, h2⟩ v' h3 h4
      unfold World.read
      rw [h4, h1]
      simp only
      rw [h2, h3]
    have step : s.step (.mux k i) = (((s.mixers k).mux (s.packets i)).1, ⟨fun j => if j = k then ((s.mixers k).mux (s.packets i)).2.1 else s.mixers j,
        fun j => if j = i then ((s.mixers k).mux (s.packets i)).2.2 else s.packets j⟩) := rfl
    rw [step]
    refine ⟨by rw [hrd, hk], ?_, ?_, ?_⟩
    · intro k'
      simp only [put]
      split
      · rw [hrd, hk]
      · exact h.mix k'
    · intro j
      simp only
      obtain ⟨m, hm⟩ := mux_packet_data (s.mixers k) (s.packets i)
      by_cases hj : j = i
      · subst hj
        rw [if_pos rfl, hm]
        have := h.pkt j
        split <;> simpa [put] using this
      · rw [if_neg hj]
        have := h.pkt j
        split <;> simpa [put, hj] using this
    · intro j
      simp only [muxed]
      by_cases hj : j = i
      · subst hj
        simp only [if_true]
        by_cases hok : (Parser.parse (w.read j) ⟨(w.mixers k).mixer.parser, Sink.mem⟩).1 = .ok ()
        · simp only [hok, if_true]
          refine .inr ⟨k, by simp, fun _ => ⟨by simp [put], ?_⟩⟩
          rw [hrd, hk] at hok
          rw [mux_packet _ _ hok]
          have hv : (b.array b.old.length).take b.len = (Parser.parse (w.read j) ⟨(w.mixers k).mixer.parser, Sink.mem⟩).2.w.out := by
            rw [Buf.array_now, ← hout]
            have := hbuf.1
            simpa [Buf.bytes, Buf.reset] using this
          apply packet_ext
          · rw [read_pkt]
            simpa [put, parsed] using h.pkt j
          · simp only [World.read, put, if_true]
            rw [hv, hrd, hk]
            rfl
        · simp only [hok, if_false]
          rw [hrd, hk] at hok
          rw [mux_packet_err _ _ hok]
          rcases h.med j with ⟨h1, h2⟩ | ⟨k0, h1, h2⟩
          · refine .inl ⟨h1, ?_⟩
            rw [← h2]
            simp only [World.read, h1]
          · obtain ⟨h3, h4⟩ := h2 (hcur k0 h1)
            have hne := hnot k0 h1 ⟨_, h3, rfl, rfl⟩
            refine .inr ⟨k0, by simp [h1], fun _ => ?_⟩
            refine ⟨by simp [put, hne, h3], ?_⟩
            rw [← h4]
            exact hother j k0 hne ⟨_, h3, rfl⟩ _ (by simp [put, hne]) rfl
      · simp only [if_neg hj]
        have hp : (if (Parser.parse (w.read i) ⟨(w.mixers k).mixer.parser, Sink.mem⟩).1 = .ok () then
            put w.packets i { pkt := (w.packets i).pkt, view := some ⟨k, b.old.length, b.len⟩ } else w.packets) j = w.packets j := by
          split
          · simp [put, hj]
          · rfl
        rcases h.med j with ⟨h1, h2⟩ | ⟨k0, h1, h2⟩
        · refine .inl ⟨(congrArg BufPacket.view hp).trans h1, (read_own _ _ ((congrArg BufPacket.view hp).trans h1)).trans ?_⟩
          exact (congrArg BufPacket.pkt hp).trans ((read_own w j h1).symm.trans h2)
        · refine .inr ⟨k0, by simp [h1], fun hf => ?_⟩
          by_cases hne : k0 = k
          · subst hne
            simp only [List.find?_cons, beq_self_eq_true, Option.some.injEq, Prod.mk.injEq, true_and] at hf
            exact absurd hf.symm hj
          · simp only [List.find?_cons, show (k == k0) = false by simpa using fun e => hne e.symm] at hf
            obtain ⟨h3, h4⟩ := h2 hf
            refine ⟨(congrArg BufPacket.view hp).trans (by rw [h3]; simp [put, hne]), ?_⟩
            rw [← h4]
            exact hother j k0 hne ⟨_, h3, rfl⟩ _ (by simp [put, hne]) hp
  | save video k i hout =>
    have hcur := hc i rfl
    have hrd := h.read hcur
    have hk := h.mix k
    have step : s.step (.save video k i) = ((saveOf video (s.mixers k) (s.packets i)).1, ⟨fun j => if j = k then (saveOf video (s.mixers k) (s.packets i)).2.1 else s.mixers j,
        fun j => if j = i then (saveOf video (s.mixers k) (s.packets i)).2.2 else s.packets j⟩) := rfl
    have hpk : ∀ x : Mixer, ∀ p : Packet, (saveOf video x p).2.2 =
        if (Parser.parse p ⟨x.parser, Sink.mem⟩).1 = .ok () then parsed x p else p := by
      intro x p
      cases video
      · split
        · exact saveHeader_packet { x with types := x.types.isAudio } p ‹_›
        · exact saveHeader_packet_err { x with types := x.types.isAudio } p ‹_›
      · split
        · exact saveHeader_packet { x with types := x.types.isVideo } p ‹_›
        · exact saveHeader_packet_err { x with types := x.types.isVideo } p ‹_›
    rw [step]
    have hother : ∀ j, j ≠ i ∨ (Parser.parse (w.read i) ⟨(w.mixers k).mixer.parser, Sink.mem⟩).1 ≠ .ok () →
        (if (Parser.parse (w.read i) ⟨(w.mixers k).mixer.parser, Sink.mem⟩).1 = .ok () then
            put w.packets i { pkt := { (w.packets i).pkt with media := [] } } else w.packets) j = w.packets j := by
      intro j hj
      split
      · rcases hj with hj | hj
        · simp [put, hj]
        · exact absurd ‹_› hj
      · rfl
    have hbuf : ∀ k' y, (put w.mixers k { w.mixers k with mixer := y } k').buf = (w.mixers k').buf := by
      intro k' y
      simp only [put]
      split
      · subst k'; rfl
      · rfl
    have hread : ∀ j y pk, pk j = w.packets j → World.read ⟨put w.mixers k { w.mixers k with mixer := y }, pk⟩ j = w.read j := by
      intro j y pk hj
      unfold World.read
      simp only [hj, hbuf]
    refine ⟨by rw [hrd, hk], ?_, ?_, ?_⟩
    · intro k'
      simp only [put]
      split
      · rw [hrd, hk]
      · exact h.mix k'
    · intro j
      simp only
      by_cases hj : j ≠ i ∨ (Parser.parse (w.read i) ⟨(w.mixers k).mixer.parser, Sink.mem⟩).1 ≠ .ok ()
      · rw [hother j hj, h.pkt j]
        split
        · subst j
          rw [hpk, if_neg]
          rw [← hrd, ← hk]
          exact hj.resolve_left (by simp)
        · rfl
      · simp only [ne_eq, not_or, Decidable.not_not] at hj
        obtain ⟨rfl, hok⟩ := hj
        simp only [hok, if_true]
        rw [hpk, if_pos (by rw [← hrd, ← hk]; exact hok)]
        simpa [put, parsed] using h.pkt j
    · intro j
      simp only [muxed]
      by_cases hj : j ≠ i ∨ (Parser.parse (w.read i) ⟨(w.mixers k).mixer.parser, Sink.mem⟩).1 ≠ .ok ()
      · rw [hother j hj, hread j _ _ (hother j hj)]
        have : (if j = i then (saveOf video (s.mixers k) (s.packets i)).2.2 else s.packets j) = s.packets j := by
          split
          · subst j
            rw [hpk, if_neg]
            rw [← hrd, ← hk]
            exact hj.resolve_left (by simp)
          · rfl
        rw [this]
        simp only [hbuf]
        exact h.med j
      · simp only [ne_eq, not_or, Decidable.not_not] at hj
        obtain ⟨rfl, hok⟩ := hj
        simp only [hok, if_true]
        refine .inl ⟨by simp [put], ?_⟩
        rw [hpk, if_pos (by rw [← hrd, ← hk]; exact hok)]
        apply packet_ext
        · rw [read_pkt]
          simpa [put, parsed] using h.pkt j
        · rw [hrd, hk] at hout
          simp only [World.read, put, if_true, parsed]
          exact hout.symm
  | other k f =>
    refine ⟨rfl, ?_, h.pkt, ?_⟩
    · intro k'
      simp only [put, Plain.step]
      split
      · rw [h.mix k]
      · exact h.mix k'
    · intro j
      have hb : ∀ k', (put w.mixers k { w.mixers k with mixer := f (w.mixers k).mixer } k').buf = (w.mixers k').buf := by
        intro k'
        simp only [put]
        split
        · subst k'; rfl
        · rfl
      have hr : World.read { w with mixers := put w.mixers k { w.mixers k with mixer := f (w.mixers k).mixer } } j = w.read j := by
        unfold World.read
        simp only [hb]
      simp only [hr, hb]
      exact h.med j

theorem muxes_append (l r : List Call) : muxes (l ++ r) = muxes r ++ muxes l := by
  induction l with
  | nil => simp [muxes]
  | cons c l ih => cases c <;> simp [muxes, ih]

theorem Same.run {w v : World} {l : List (Call × Res Unit)} (hr : World.Run w l v) : ∀ {s : Plain} {pre : List Call},
    Same w s (muxes pre) → InTime (pre ++ l.map (·.1)) →
    l.map (·.2) = (s.run (l.map (·.1))).1 ∧ Same v (s.run (l.map (·.1))).2 (muxes (pre ++ l.map (·.1))) := by
  induction hr with
  | nil w => intro s pre h _; simpa [Plain.run] using h
  | @cons u v w c r l hs _ ih =>
    intro s pre h ht
    obtain ⟨h1, h2⟩ := h.step hs (fun i hi => ht pre c (l.map (·.1)) i rfl hi)
    have e : muxed (muxes pre) c = muxes (pre ++ [c]) := by
      rw [muxes_append]
      cases c <;> simp [muxed, muxes]
    rw [e] at h2
    obtain ⟨h3, h4⟩ := ih h2 (by simpa using ht)
    exact ⟨by simp [Plain.run, h1, h3], by simpa [Plain.run] using h4⟩

/-- `Mux` can be called. -/
theorem can_mux (w : World) (k i : Nat) (own : ∀ v, (w.packets i).view = some v → v.mixer = k → v.gen ≠ (w.mixers k).buf.old.length) :
    ∃ r v, World.Step w (.mux k i) r v := by
  have : ∀ (b : Buf) bs, ∃ c, Buf.Write b bs c := by
    intro b bs
    by_cases h : b.len + bs.length ≤ b.arr.length
    · exact ⟨_, .reslice h⟩
    · exact ⟨_, .grow [] (by omega)⟩
  obtain ⟨c, hc⟩ := this (w.mixers k).buf.reset (Parser.parse (w.read i) ⟨(w.mixers k).mixer.parser, Sink.mem⟩).2.w.out
  exact ⟨_, _, .mux k i [_] c own (.cons hc (.nil c)) (by simp)⟩

/-- C134 (partial): if every packet is given to a mixer only as long as no mixer it went to before has muxed another packet, every call has the
result, and every mixer sends the stream, that it has without sharing; a packet that is still current has the same media.
Missing: older packets (`C134_media_refuted`). -/
theorem C134_in_time_partial {w v : World} (hw : ∀ i, (w.packets i).view = none) {l : List (Call × Res Unit)} (hr : World.Run w l v)
    (ht : InTime (l.map (·.1))) (s : Plain) (hs : s = ⟨fun k => (w.mixers k).mixer, fun i => (w.packets i).pkt⟩) :
    l.map (·.2) = (s.run (l.map (·.1))).1 ∧ (∀ k, (v.mixers k).mixer = (s.run (l.map (·.1))).2.mixers k) ∧
      ∀ i, Current (muxes (l.map (·.1))) i → v.read i = (s.run (l.map (·.1))).2.packets i := by
  subst hs
  obtain ⟨h1, h2⟩ := Same.run hr (s := ⟨fun k => (w.mixers k).mixer, fun i => (w.packets i).pkt⟩) (pre := [])
    ⟨fun _ => rfl, fun _ => rfl, fun i => .inl ⟨hw i, read_own w i (hw i)⟩⟩ (by simpa using ht)
  exact ⟨h1, h2.mix, fun i hi => h2.read (by simpa using hi)⟩

theorem muxes_mem {calls : List Call} {k i : Nat} (h : (k, i) ∈ muxes calls) : i ∈ calls.filterMap packetOf := by
  induction calls with
  | nil => simp [muxes] at h
  | cons c r ih =>
    cases c with
    | mux k' i' =>
      simp only [muxes, List.mem_append, List.mem_singleton, Prod.mk.injEq] at h
      simp only [packetOf, List.filterMap_cons, List.mem_cons]
      rcases h with h | ⟨-, h⟩
      · exact .inr (ih h)
      · exact .inl h
    | save b k' i' =>
      simp only [packetOf, List.filterMap_cons, List.mem_cons]
      exact .inr (ih h)
    | other k' f =>
      simp only [packetOf, List.filterMap_cons]
      exact ih h

/-- C134 (partial): the same for programs that use every packet once. -/
theorem C134_once_partial {w v : World} (hw : ∀ i, (w.packets i).view = none) {l : List (Call × Res Unit)} (hr : World.Run w l v)
    (ho : ((l.map (·.1)).filterMap packetOf).Nodup) (s : Plain) (hs : s = ⟨fun k => (w.mixers k).mixer, fun i => (w.packets i).pkt⟩) :
    l.map (·.2) = (s.run (l.map (·.1))).1 ∧ ∀ k, (v.mixers k).mixer = (s.run (l.map (·.1))).2.mixers k := by
  have := C134_in_time_partial hw hr ?_ s hs
  · exact ⟨this.1, this.2.1⟩
  · intro a c b i e hi k hk
    rw [e] at ho
    simp only [List.filterMap_append, List.filterMap_cons, hi] at ho
    exact absurd rfl ((List.nodup_append.mp ho).2.2 i (muxes_mem hk) i (by simp))

/-! ## Sharing with harm -/

/-- What a `Mux` that parses its packet changes. -/
theorem step_mux {u v : World} {k i : Nat} {r : Res Unit} (h : World.Step u (.mux k i) r v)
    (ok : (Parser.parse (u.read i) ⟨(u.mixers k).mixer.parser, Sink.mem⟩).1 = .ok ()) :
    ∃ cs b, Buf.Writes (u.mixers k).buf.reset cs b ∧ v.read i = parsed (u.mixers k).mixer (u.read i) ∧ r = ((u.mixers k).mixer.mux (u.read i)).1 ∧
      v.mixers k = ⟨((u.mixers k).mixer.mux (u.read i)).2.1, b⟩ ∧ (∀ k', k' ≠ k → v.mixers k' = u.mixers k') ∧
      v.packets i = { u.packets i with view := some ⟨k, b.old.length, b.len⟩ } ∧ ∀ j, j ≠ i → v.packets j = u.packets j := by
  cases h with
  | mux _ _ cs b own hb hout =>
    refine ⟨cs, b, hb, ?_, rfl, by simp [put], fun k' h => by simp [put, h], ?_, fun j h => ?_⟩
    · rw [if_pos ok]
      apply packet_ext
      · rw [read_pkt]
        have := read_pkt u i
        simpa [put, parsed] using this.symm
      · have hbb := (Buf.Writes.bytes hb (Nat.zero_le _)).1
        simp only [Buf.bytes, Buf.reset, List.take_zero, List.nil_append] at hbb
        simp only [World.read, put, if_true, parsed, Buf.array_now]
        rw [hbb]
        exact hout
    · rw [if_pos ok]; simp [put]
    · rw [if_pos ok]; simp [put, h]

/-- C134 fails: when the mixer muxes another packet, the first one shows the media of the second, as far as it goes. -/
theorem C134_media_refuted {u v w : World} {k i j : Nat} {r r' : Res Unit} (hij : i ≠ j) (h1 : World.Step u (.mux k i) r v) (h2 : World.Step v (.mux k j) r' w)
    (ok1 : (Parser.parse (u.read i) ⟨(u.mixers k).mixer.parser, Sink.mem⟩).1 = .ok ())
    (ok2 : (Parser.parse (v.read j) ⟨(v.mixers k).mixer.parser, Sink.mem⟩).1 = .ok ())
    (hlen : (w.read j).media.length ≤ (v.read i).media.length) :
    (w.read i).media = (w.read j).media ++ (v.read i).media.drop (w.read j).media.length := by
  obtain ⟨cs, b, hb, -, -, vb, -, vi, -⟩ := step_mux h1 ok1
  obtain ⟨cs', b', hb', -, -, wb, -, wj, wi⟩ := step_mux h2 ok2
  have mi : (v.read i).media = b.arr.take b.len := by
    simp only [World.read, vi, vb, Buf.array_now]
  have bl := (Buf.Writes.bytes hb (Nat.zero_le _)).2
  have mj : (w.read j).media = b'.arr.take b'.len := by
    simp only [World.read, wj, wb, Buf.array_now]
  have hbb := (Buf.Writes.bytes hb' (Nat.zero_le _)).1
  simp only [Buf.bytes, Buf.reset, List.take_zero, List.nil_append] at hbb
  rw [mj, mi, hbb] at hlen ⊢
  have hl : cs'.flatten.length ≤ b.len := by rw [List.length_take] at hlen; omega
  obtain ⟨e1, e2⟩ := Buf.Writes.inPlace hb' (by rw [vb]; simp only [Buf.reset]; omega)
  rw [vb] at e1 e2
  simp only [Buf.reset, List.take_zero, List.nil_append, Nat.zero_add] at e1 e2
  have mw : (w.read i).media = b'.arr.take b.len := by
    simp only [World.read, wi i hij, vi, wb]
    rw [← e1, Buf.array_now]
  rw [mw, e2, List.take_append, List.take_of_length_le hl, List.drop_take]

/-- What the parser of a mixer makes of an AVC frame. -/
theorem avc_parse {x : Mixer} {hs : List (Bytes × Bytes × Bytes)} (hx : MixHist x hs) (q : Packet) (ht : q.type = 0) (vh : VideoHdr) (ah : AudioHdr)
    (hqh : q.header = some ⟨some vh, some ah⟩) (hc : vh.isCodecAvc = true ∧ vh.isSeqHdr = false) (nals : List Bytes) (hm : q.media = avcc nals)
    (hn : ∀ n ∈ nals, Supported n) (hne : nals ≠ []) (h1 : ∀ n, nals.head? = some n → n.length ≠ 1) :
    (Parser.parse q ⟨x.parser, Sink.mem⟩).1 = .ok () ∧
      (parsed x q).media = accessUnit (annexB (hs.flatMap fun x => [x.1, x.2.1 ++ x.2.2])) nals := by
  obtain ⟨w', k1, k2⟩ := C59_annexb _ hs (MixHist.inv hx).h264 nals hn hne h1 Sink.mem (fun _ => rfl)
  have hpar := (C68_routes q vh _ hqh x.parser Sink.mem).1 ht hc.1 _ rfl
  rw [hc.2, hm, k1] at hpar
  refine ⟨by rw [hpar], ?_⟩
  show (Parser.parse q ⟨x.parser, Sink.mem⟩).2.w.out = _
  rw [hpar]
  simpa [Sink.mem] using k2

/-- C134 fails for every two video frames: a second mixer, to which the first frame is given after the first mixer has muxed both, sends the
second frame in its place, as far as it goes. -/
theorem C134_stream_refuted {u v w z : World} {k k' i j : Nat} {r1 r2 r3 : Res Unit} (hk : k' ≠ k) (hij : i ≠ j)
    (h1 : World.Step u (.mux k i) r1 v) (h2 : World.Step v (.mux k j) r2 w) (h3 : World.Step w (.mux k' i) r3 z)
    {hs : List (Bytes × Bytes × Bytes)} (hx : MixHist (u.mixers k).mixer hs) (hy : MixReach (u.mixers k').mixer) (hw : (u.mixers k').mixer.ts.Reliable)
    (p q : Packet) (hp : p.type = 0) (hq : q.type = 0) (b0 b2 b3 b4 c0 c2 c3 c4 : UInt8) (nals nals' : List Bytes)
    (hdp : p.data = b0 :: 1 :: b2 :: b3 :: b4 :: avcc nals) (hdq : q.data = c0 :: 1 :: c2 :: c3 :: c4 :: avcc nals')
    (hb : b0.toNat / 16 = 1 ∨ b0.toNat / 16 = 2) (hb7 : b0.toNat % 16 = 7) (hc : c0.toNat / 16 = 1 ∨ c0.toNat / 16 = 2) (hc7 : c0.toNat % 16 = 7)
    (hn : ∀ n ∈ nals, Supported n) (hne : nals ≠ []) (hn1 : ∀ n, nals.head? = some n → n.length ≠ 1)
    (hn' : ∀ n ∈ nals', Supported n) (hne' : nals' ≠ []) (hn1' : ∀ n, nals'.head? = some n → n.length ≠ 1)
    (hi : Flv.demux p = (.ok (), u.read i)) (hj : Flv.demux q = (.ok (), u.read j)) (own : (u.packets j).view = none)
    (au au' : Bytes) (hau : au = accessUnit (annexB (hs.flatMap fun x => [x.1, x.2.1 ++ x.2.2])) nals)
    (hau' : au' = accessUnit (annexB (hs.flatMap fun x => [x.1, x.2.1 ++ x.2.2])) nals') (hlen : b0.toNat / 16 = 1 → 170 ≤ au.length)
    (hle : au'.length ≤ au.length) :
    r3 = .ok () ∧ ∃ out pes, (z.mixers k').mixer.ts.out = (u.mixers k').mixer.ts.out ++ out ∧ Carries out 0x100 pes ∧
      pes.data = au' ++ au.drop au'.length := by
  obtain ⟨vh, ah, e0, ec, ek⟩ := avc_demux p hp b0 b2 b3 b4 _ hdp hb hb7
  obtain ⟨vh', ah', e0', ec', -⟩ := avc_demux q hq c0 c2 c3 c4 _ hdq hc hc7
  rw [hi, Prod.mk.injEq] at e0
  rw [hj, Prod.mk.injEq] at e0'
  obtain ⟨ok1, m1⟩ := avc_parse hx (u.read i) (by rw [e0.2]; exact hp) vh ah (by rw [e0.2]) ec nals (by rw [e0.2]) hn hne hn1
  rw [← hau] at m1
  obtain ⟨cs, b, -, f1, -, f2, f3, f4, f5⟩ := step_mux h1 ok1
  have hjv : v.read j = u.read j := by
    rw [read_own u j own, read_own v j (by rw [f5 j (Ne.symm hij)]; exact own), f5 j (Ne.symm hij)]
  have hx' : MixHist (v.mixers k).mixer hs := by
    rw [f2]
    refine .other (.mux (u.read i)) hx ?_
    intro p' hp' hcfg
    simp only [MixOp.packet, Option.some.injEq] at hp'
    subst hp'
    obtain ⟨-, v', a', g1, g2, g3⟩ := hcfg
    rw [e0.2] at g1
    cases g1
    rw [ec.2] at g3
    cases g3
  obtain ⟨ok2, m2⟩ := avc_parse hx' (v.read j) (by rw [hjv, e0'.2]; exact hq) vh' ah' (by rw [hjv, e0'.2]) ec' nals' (by rw [hjv, e0'.2]) hn' hne' hn1'
  rw [← hau'] at m2
  obtain ⟨cs', b', -, g1, -, g2, g3, g4, g5⟩ := step_mux h2 ok2
  have hm := C134_media_refuted hij h1 h2 ok1 ok2 (by rw [g1, f1, m2, m1]; exact hle)
  rw [g1, f1, m2, m1] at hm
  have hkk : (w.mixers k').mixer = (u.mixers k').mixer := by rw [g3 k' hk, f3 k' hk]
  have hwi : w.read i = { u.read i with media := au' ++ au.drop au'.length } := by
    apply packet_ext
    · rw [read_pkt, g5 i hij, f4]
      exact (read_pkt u i).symm
    · exact hm
  have hstart : ∃ r, au' = [0, 0, 0, 1] ++ r := ⟨au'.drop 4, by rw [hau', accessUnit]; split <;> rfl⟩
  obtain ⟨r, hr⟩ := hstart
  obtain ⟨w2, l1, l2⟩ := C61_passthrough (r ++ au.drop au'.length) ((w.mixers k').mixer.parser.h264.getD .new) Sink.mem (fun _ => rfl)
  rw [← List.append_assoc, ← hr] at l1
  obtain ⟨ok3, a1, -, out, pes, a3, a4, a5⟩ := avc_mux (z := (w.mixers k').mixer) (by rw [hkk]; exact hy) (by rw [hkk]; exact hw) (w.read i)
    (by rw [hwi, e0.2]; exact hp) vh ah (by rw [hwi, e0.2]) ec (au' ++ au.drop au'.length)
    (fun h => by
      have := hlen (by simpa [ek] using h)
      simp only [List.length_append, List.length_drop]; omega)
    ⟨w2, by rw [hwi]; exact l1, by rw [l2, hr]; simp [Sink.mem]⟩
  obtain ⟨cs3, b3', -, -, n1, n2, -, -, -⟩ := step_mux h3 ok3
  exact ⟨by rw [n1]; exact a1, out, pes, by rw [n2, ← hkk]; exact a3, a4, a5⟩

/-- Two mixers, the first of which knows the parameter sets, and two packets with a slice each. -/
def world2 : World where
  mixers k := ⟨if k = 0 then mixer2 else Mixer.new Sink.mem, .new⟩
  packets i := { pkt := (Flv.demux { type := 0, data := 0x27 :: 1 :: 0 :: 0 :: 0 :: avcc [[0x41, if i = 0 then 5 else 9, 6]] }).2 }

theorem frame2 (a : UInt8) : (∀ n ∈ [[0x41, a, 6]], Supported n) ∧ ([[0x41, a, 6]] : List Bytes) ≠ [] ∧
    (∀ n, ([[0x41, a, 6]] : List Bytes).head? = some n → n.length ≠ 1) ∧
    Flv.demux { type := 0, data := 0x27 :: 1 :: 0 :: 0 :: 0 :: avcc [[0x41, a, 6]] } =
      (.ok (), (Flv.demux { type := 0, data := 0x27 :: 1 :: 0 :: 0 :: 0 :: avcc [[0x41, a, 6]] }).2) := by
  refine ⟨?_, by simp, by simp, ?_⟩
  · intro n hn
    simp only [List.mem_cons, List.not_mem_nil, or_false] at hn
    subst hn
    exact ⟨by simp, by simp, by simp [isPicture, isIdr, unitType]⟩
  · obtain ⟨vh, ah, h, -⟩ := avc_demux { type := 0, data := 0x27 :: 1 :: 0 :: 0 :: 0 :: avcc [[0x41, a, 6]] } rfl 0x27 0 0 0 _ rfl (by decide) (by decide)
    exact Prod.ext (by rw [h]) rfl

example : ∃ v w z r1 r2 r3, World.Step world2 (.mux 0 0) r1 v ∧ World.Step v (.mux 0 1) r2 w ∧ World.Step w (.mux 1 0) r3 z ∧ r3 = .ok () ∧
    ∃ out pes, (z.mixers 1).mixer.ts.out = (world2.mixers 1).mixer.ts.out ++ out ∧ Carries out 0x100 pes ∧
      pes.data = [0, 0, 0, 1, 9, 0xf0, 0, 0, 0, 1, 0x41, 9, 6] := by
  obtain ⟨r1, v, h1⟩ := can_mux world2 0 0 (by intro v h; cases h)
  obtain ⟨hs, h⟩ := reach_mixer2
  have h' : MixHist (world2.mixers 0).mixer hs := by
    rw [show (world2.mixers 0).mixer = mixer2 by simp only [world2, if_true]]; exact h
  obtain ⟨vh, ah, e0, ec, -⟩ := avc_demux { type := 0, data := 0x27 :: 1 :: 0 :: 0 :: 0 :: avcc [[0x41, 5, 6]] } rfl 0x27 0 0 0 _ rfl (by decide) (by decide)
  have e1 : world2.read 0 = { type := 0, header := some ⟨some vh, some ah⟩, data := 0x27 :: 1 :: 0 :: 0 :: 0 :: avcc [[0x41, 5, 6]], media := avcc [[0x41, 5, 6]] } := by
    show (Flv.demux { type := 0, data := 0x27 :: 1 :: 0 :: 0 :: 0 :: avcc [[0x41, 5, 6]] }).2 = _
    rw [e0]
  have ok1 : (Parser.parse (world2.read 0) ⟨(world2.mixers 0).mixer.parser, Sink.mem⟩).1 = .ok () :=
    (avc_parse h' (world2.read 0) (by rw [e1]) vh ah (by rw [e1]) ec _ (by rw [e1]) (frame2 5).1 (by simp) (by simp)).1
  obtain ⟨cs, b, -, -, -, v1, v2, v3, v4⟩ := step_mux h1 ok1
  obtain ⟨r2, w, h2⟩ := can_mux v 0 1 (by intro v h; rw [v4 1 (by decide)] at h; cases h)
  have hw : (w.packets 0).view = some ⟨0, b.old.length, b.len⟩ := by
    cases h2
    simp only
    split <;> simp [put, v3]
  obtain ⟨r3, z, h3⟩ := can_mux w 1 0 (by intro v h; rw [hw] at h; cases h; intro h; cases h)
  obtain ⟨k1, out, pes, k2, k3, k4⟩ := C134_stream_refuted (by decide) (by decide) h1 h2 h3 h' ⟨_, .new Sink.mem⟩ (fun _ => rfl)
    { type := 0, data := 0x27 :: 1 :: 0 :: 0 :: 0 :: avcc [[0x41, 5, 6]] } { type := 0, data := 0x27 :: 1 :: 0 :: 0 :: 0 :: avcc [[0x41, 9, 6]] } rfl rfl
    0x27 0 0 0 0x27 0 0 0 _ _ rfl rfl (by decide) (by decide) (by decide) (by decide) (frame2 5).1 (by simp) (by simp) (frame2 9).1 (by simp) (by simp)
    (frame2 5).2.2.2 (frame2 9).2.2.2 rfl [0, 0, 0, 1, 9, 0xf0, 0, 0, 0, 1, 0x41, 5, 6] [0, 0, 0, 1, 9, 0xf0, 0, 0, 0, 1, 0x41, 9, 6] rfl rfl (by decide) (by decide)
  exact ⟨v, w, z, r1, r2, r3, h1, h2, h3, k1, out, pes, k2, k3, k4⟩

example : ∃ l v, World.Run world2 l v ∧ l.map (·.1) = [.mux 0 0, .mux 0 1] ∧ ((l.map (·.1)).filterMap packetOf).Nodup ∧ ∀ i, (world2.packets i).view = none := by
  obtain ⟨r1, v, h1⟩ := can_mux world2 0 0 (by intro v h; cases h)
  obtain ⟨r2, w, h2⟩ := can_mux v 0 1 (by
    intro x h
    have hv : v.packets 1 = world2.packets 1 := by
      cases h1
      simp only
      split
      · simp [put]
      · rfl
    rw [hv] at h
    cases h)
  exact ⟨[(.mux 0 0, r1), (.mux 0 1, r2)], w, .cons h1 (.cons h2 (.nil w)), rfl, by simp [packetOf], fun _ => rfl⟩

/-- Each packet goes to both mixers before the next one. -/
example : InTime [.mux 0 0, .mux 1 0, .mux 0 1, .mux 1 1] := by
  intro l c r i e hi k hk
  match l with
  | [] => simp [muxes] at hk
  | [a] =>
    simp only [List.cons_append, List.nil_append, List.cons.injEq] at e
    obtain ⟨rfl, rfl, -⟩ := e
    cases hi
    simp only [muxes, List.nil_append, List.mem_cons, Prod.mk.injEq, List.not_mem_nil, or_false] at hk
    obtain ⟨rfl, -⟩ := hk
    decide
  | [a, b] =>
    simp only [List.cons_append, List.nil_append, List.cons.injEq] at e
    obtain ⟨rfl, rfl, rfl, -⟩ := e
    cases hi
    simp [muxes] at hk
  | [a, b, d] =>
    simp only [List.cons_append, List.nil_append, List.cons.injEq] at e
    obtain ⟨rfl, rfl, rfl, rfl, -⟩ := e
    cases hi
    simp only [muxes, List.nil_append, List.cons_append, List.mem_cons, Prod.mk.injEq, List.not_mem_nil, or_false] at hk
    rcases hk with ⟨rfl, -⟩ | ⟨-, h⟩ | ⟨-, h⟩
    · decide
    · cases h
    · cases h
  | a :: b :: d :: f :: g => simp at e

/-- Not so in the run above. -/
example : ¬ InTime [.mux 0 0, .mux 0 1, .mux 1 0] := by
  intro h
  have := h [.mux 0 0, .mux 0 1] (.mux 1 0) [] 0 rfl rfl 0 (by simp [muxes])
  revert this
  decide

end Verif.Props
