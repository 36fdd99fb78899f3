import Verif.Props.TsMixerCc
/-!
# Property C87: continuity counters at the mixer output, PID by PID
-/
namespace Verif.Props
open Verif Verif.Ts Verif.Spec.Ts Verif.Spec.Es

/-- The part of `Run` about one PID. -/
def RunOn (pid : Nat) (m : Muxer) (ps : List TsPacket) (m' : Muxer) : Prop :=
  ∃ s, (∀ i t, (ps.filter (·.pid == pid))[i]? = some t → t.cc = (s + i) % 16) ∧
    ((pid = 0 ∨ pid = 0x1001 ∨ pid = 0x100 ∨ pid = 0x101) → cur m' pid % 16 = (s + (ps.filter (·.pid == pid)).length) % 16)

/-- A saved sequence header: nothing is written, and the counters of other PIDs stay. -/
theorem save_cur {y : Mixer} (hy : Reach y.muxer) (p : Packet) (hnp : (y.saveHeader p).1 ≠ .panic) :
    (y.saveHeader p).2.1.ts = y.ts ∧
      ∀ pid, Apart pid p → (pid = 0 ∨ pid = 0x1001 ∨ pid = 0x100 ∨ pid = 0x101) → cur (y.saveHeader p).2.1.muxer pid = cur y.muxer pid := by
  obtain ⟨-, -, -, -, -, -, h7, -⟩ := saveHeader_parts y p
  refine ⟨h7, fun pid ha hk => ?_⟩
  by_cases hp : (Parser.parse p ⟨y.parser, Sink.mem⟩).1 = .ok ()
  · rw [y.saveHeader_ok p hp _ rfl] at hnp ⊢
    simp only at hnp ⊢
    generalize hq : ({ p with media := (Parser.parse p ⟨y.parser, Sink.mem⟩).2.w.out } : Packet) = q at *
    have hqt : q.type = p.type := by rw [← hq]
    obtain ⟨i, j, hh⟩ := hy
    have hg := Hist.good hh
    by_cases hkk : ∃ v key, Kind q v key
    · obtain ⟨v, key, hkk⟩ := hkk
      have hf : Fits v key q 0 0 := by
        intro hkey
        have hv : v = true := by
          cases hkk with
          | video vh _ _ => rfl
          | audio _ => exact absurd hkey (by decide)
        rw [hkey, hv] at hkk
        rw [hv]
        by_cases h1 : pesLen true q 0 0 < 176
        · exact .inl h1
        by_cases h2 : 184 ≤ pesLen true q 0 0
        · exact .inr h2
        have := (mux_panic q 0 0 hkk (by rw [pesBytes_length]; omega) (by rw [pesBytes_length]; omega) ⟨y.muxer, Sink.mem⟩ hg.len).1
        exact absurd this hnp
      obtain ⟨m', h1, h2⟩ := mux_reliable hg hkk 0 0 hf Sink.mem (fun _ => rfl)
      rw [h1]
      simp only
      have hoth := ccOf_after h2 (!v)
      rw [ccOf_bumpN_other] at hoth
      have htab : m'.patCc = y.muxer.patCc ∧ m'.pmtCc = y.muxer.pmtCc := by
        rw [h2.2]
        exact bumpN_tab v _ _
      have hpv : pid ≠ if v then 0x100 else 0x101 := by
        cases hkk with
        | video vh ht _ => intro e; exact ha.1 e (by rw [← hqt]; exact ht)
        | audio ht => intro e; exact ha.2 e (by rw [← hqt]; exact ht)
      unfold cur
      rw [htab.1, htab.2]
      rcases hk with rfl | rfl | rfl | rfl
      · rfl
      · rfl
      · cases v
        · show (ccOf true m').toNat + 1 = _
          rw [show ccOf true m' = ccOf true y.muxer from hoth]; rfl
        · exact absurd rfl hpv
      · cases v
        · exact absurd rfl hpv
        · show (ccOf false m').toNat + 1 = _
          rw [show ccOf false m' = ccOf false y.muxer from hoth]; rfl
    · rw [(mux_nokind q 0 0 ⟨y.muxer, Sink.mem⟩ hkk).1]
  · rw [y.saveHeader_rejected p hp]

/-- What is known after calls that are `QuietOn` a PID. -/
structure QInvOn (pid : Nat) (x y : Mixer) : Prop where
  reach : MixReach y
  works : y.ts.Reliable
  out : ∃ l : List (Bytes × TsPacket), y.ts.out = x.ts.out ++ (l.map (·.1)).flatten ∧
    (∀ t ∈ l, t.1.length = 188 ∧ parsePacket t.1 = some t.2) ∧ Known (l.map (·.2)) ∧ RunOn pid x.muxer (l.map (·.2)) y.muxer

theorem QInvOn.save {pid : Nat} {x y z : Mixer} (h : QInvOn pid x y) (h0 : x.ts.out = []) (hr : MixReach z) (ht : z.ts = y.ts) (p : Packet)
    (hc : Apart pid p → (pid = 0 ∨ pid = 0x1001 ∨ pid = 0x100 ∨ pid = 0x101) → cur z.muxer pid = cur y.muxer pid)
    (ha : Apart pid p ∨ Unused pid y.ts.out) : QInvOn pid x z := by
  obtain ⟨l, h1, h2, h3, s, h4, h5⟩ := h.out
  refine ⟨hr, by rw [ht]; exact h.works, l, by rw [ht]; exact h1, h2, h3, ?_⟩
  rcases ha with ha | ha
  · exact ⟨s, h4, fun hk => by rw [hc ha hk]; exact h5 hk⟩
  · have hn : (l.map (·.2)).filter (·.pid == pid) = [] := by
      rw [List.filter_eq_nil_iff]
      intro t ht'
      have := ha (l.map (·.2)) (by rw [h1, h0, List.nil_append]; exact parseStream_flatten l h2) t ht'
      simpa using this
    rw [RunOn, hn]
    exact ⟨cur z.muxer pid, by simp, by simp⟩

theorem QuietOn.inv {pid : Nat} (hpid : pid ≠ 0x11) {x y : Mixer} (h : QuietOn pid x y) (hx : MixReach x) (hw : x.ts.Reliable) (h0 : x.ts.out = []) : QInvOn pid x y := by
  induction h with
  | refl => exact ⟨hx, hw, [], by simp, by simp, by intro t; simp, cur x.muxer pid, by simp, by simp⟩
  | @quiet y z _ hq ih =>
    obtain ⟨r, w, l, h1, h2, h3, h4⟩ := Quiet.inv hq ih.reach ih.works
    obtain ⟨k, g1, g2, g3, s, g4, g5⟩ := ih.out
    refine ⟨r, w, k ++ l, ?_, ?_, ?_, s, ?_⟩
    · rw [h1, g1]; simp
    · intro t ht
      rcases List.mem_append.mp ht with ht | ht
      · exact g2 t ht
      · exact h2 t ht
    · rw [List.map_append]
      intro t ht
      rcases List.mem_append.mp ht with ht | ht
      · exact g3 t ht
      · exact h3 t ht
    · rw [List.map_append]
      generalize k.map (·.2) = ps at *
      generalize l.map (·.2) = qs at *
      obtain ⟨b1, b2⟩ := h4 pid hpid
      by_cases hk : pid = 0 ∨ pid = 0x1001 ∨ pid = 0x100 ∨ pid = 0x101
      · have a2 := g5 hk
        have b2 := b2 hk
        refine ⟨fun i t ht => ?_, fun _ => ?_⟩
        · rw [List.filter_append] at ht
          by_cases hi : i < (ps.filter (·.pid == pid)).length
          · rw [List.getElem?_append_left hi] at ht
            exact g4 i t ht
          · rw [List.getElem?_append_right (by omega)] at ht
            have := b1 _ t ht
            omega
        · rw [List.filter_append, List.length_append]
          omega
      · have : qs.filter (·.pid == pid) = [] := by
          rw [List.filter_eq_nil_iff]
          intro t ht e
          have := h3 t ht
          simp only [beq_iff_eq] at e
          omega
        rw [List.filter_append, this, List.append_nil]
        exact ⟨g4, fun h => absurd h hk⟩
  | @saveAVC y p _ hnp ha ih =>
    have hr := MixReach.op ih.reach (.saveAVC p)
    obtain ⟨hs, hy⟩ := ih.reach
    obtain ⟨c1, c2⟩ := save_cur (y := { y with types := y.types.isVideo }) (MixHist.inv hy).muxer p hnp
    exact ih.save h0 hr c1 p (c2 pid) ha
  | @saveAAC y p _ hnp ha ih =>
    have hr := MixReach.op ih.reach (.saveAAC p)
    obtain ⟨hs, hy⟩ := ih.reach
    obtain ⟨c1, c2⟩ := save_cur (y := { y with types := y.types.isAudio }) (MixHist.inv hy).muxer p hnp
    exact ih.save h0 hr c1 p (c2 pid) ha

/-- C87, PID by PID: after `SetWriter`, whatever is called and with whatever outcome, the counters on a PID other than that
of the SDT (`C92`) are consecutive as long as no sequence header for this PID is saved after the first packet on it. So
sequence headers may be saved at the start, and saving them for video does not disturb audio or the tables.

Full claim: the same with `SaveAVCHeader` and `SaveAACHeader` at any time (`C87_saved_header_refuted`), and for PID 0x11. -/
theorem C87_pid_continuity_partial {x y : Mixer} (hx : MixReach x) (w : Sink) (hw : w.Reliable) (h0 : w.out = []) (pid : Nat)
    (hpid : pid ≠ 0x11) (h : QuietOn pid (x.setWriter w) y) :
    ∃ ps, parseStream y.ts.out = some ps ∧
      ∃ s, ∀ i t, (ps.filter (·.pid == pid))[i]? = some t → t.cc = (s + i) % 16 := by
  obtain ⟨-, -, l, h1, h2, -, s, h4, -⟩ := QuietOn.inv hpid h (MixReach.op hx (.setWriter w)) hw h0
  refine ⟨l.map (·.2), ?_, s, h4⟩
  rw [h1]
  show parseStream (w.out ++ _) = _
  rw [h0, List.nil_append]
  exact parseStream_flatten l h2

/-- Sequence headers that are saved before the first frame do not disturb the frames. -/
example : ∃ y, QuietOn 0x100 (mixer2.setWriter Sink.mem) y ∧
    (parseStream y.ts.out).map (·.map fun t => (t.pid, t.cc)) = some [(0x100, 3), (0x100, 4)] :=
  have hu : Unused 0x100 (mixer2.setWriter Sink.mem).ts.out := by
    intro ps h t ht
    have e : parseStream (mixer2.setWriter Sink.mem).ts.out = some [] := by decide +kernel
    rw [e] at h
    cases h
    cases ht
  ⟨_, .quiet (.saveAVC avcCfg .refl (by decide +kernel) (.inr hu))
      (.mux interFrame (.mux interFrame .refl (by decide +kernel)) (by decide +kernel)), by decide +kernel⟩

/-- One that is saved later does not disturb the other PIDs. -/
example : ∃ y, QuietOn 0x101 (mixer2.setWriter Sink.mem) y ∧
    (parseStream y.ts.out).map (·.map fun t => (t.pid, t.cc)) = some [(0x100, 2), (0x100, 4)] :=
  ⟨_, .quiet (.saveAVC avcCfg (.quiet .refl (.mux interFrame .refl (by decide +kernel))) (by decide +kernel) (.inl ⟨by decide, by decide⟩))
      (.mux interFrame .refl (by decide +kernel)), by decide +kernel⟩

end Verif.Props
