import Verif.Spec.TsHeld
import Verif.Props.Ts
/-!
# Property C161: tables that a muxer has returned stay as they are

`held m k` (`Verif/Model/TsHeld.lean`) is what the caller reads in the slice that the function for the table `k` has returned;
`Since k` (`Verif/Spec/TsHeld.lean`) are the calls of the other functions.
-/
namespace Verif.Props
open Verif Verif.Ts Verif.Spec Verif.Spec.Ts

theorem pmt_held (mt : List Int) (m : Muxer) (out : Bytes) (h : (pmt mt m).1 = .ok out) : (pmt mt m).2.pmt = out := by
  unfold pmt at h ⊢
  simp only [GoM.bind_apply, GoM.get_apply, GoM.lift_apply] at h ⊢
  repeat' split at h
  all_goals first | cases h | skip
  all_goals simp_all
  rename_i e
  rw [← e]

theorem sdt_held (desc : Bytes) (m : Muxer) (out : Bytes) (h : (Ts.sdt desc m).1 = .ok out) : (Ts.sdt desc m).2.sdt = out := by
  rw [sdt_eq] at h ⊢
  simp only at h
  simp only [h]

/-- The calls of the other functions keep the table, and the count of its calls. -/
theorem since_keeps {k : Table} {m m' : Muxer} (h : Since k m m') : ∀ {a b : Nat}, Hist m a b →
    held m' k = held m k ∧ ∃ a' b', Hist m' a' b' ∧ (k = .pat → a' = a) ∧ (k = .pmt → b' = b) := by
  induction h with
  | refl => exact fun h => ⟨rfl, _, _, h, fun _ => rfl, fun _ => rfl⟩
  | @mux m' p dts pts w _ ih =>
    intro a b h
    obtain ⟨e, a', b', h', h1, h2⟩ := ih h
    have g := keeps_mux p dts pts ⟨m', w⟩
    refine ⟨?_, a', b', .mux p dts pts w h', h1, h2⟩
    rw [← e]
    cases k
    · exact g.sdt
    · exact g.pat
    · exact g.pmt
  | @sdt m' hk desc _ ih =>
    intro a b h
    obtain ⟨e, a', b', h', h1, h2⟩ := ih h
    refine ⟨?_, a', b', .sdt desc h', h1, h2⟩
    rw [← e, sdt_eq]
    cases k
    · exact absurd rfl hk
    all_goals cases sdtBytes desc m'.sdt <;> rfl
  | @pat m' hk _ ih =>
    intro a b h
    obtain ⟨e, a', b', h', h1, h2⟩ := ih h
    refine ⟨?_, a' + 1, b', .pat h', fun x => absurd x hk, h2⟩
    rw [← e, pat_ok m' (Hist.good h').pat]
    cases k
    · rfl
    · exact absurd rfl hk
    · rfl
  | @pmt m' hk mt _ ih =>
    intro a b h
    obtain ⟨e, a', b', h', h1, h2⟩ := ih h
    refine ⟨?_, a', b' + 1, .pmt mt h', h1, fun x => absurd x hk⟩
    obtain ⟨-, -, h3⟩ := pmt_any mt m' (Hist.good h').pmt
    rw [← e]
    cases k
    · exact congrArg (·.sdt) h3
    · exact congrArg (·.pat) h3
    · exact absurd rfl hk

/-- A table that was returned can be read until the same function is called again, whatever else is called.

Full claim: also after that (`C161_pat_refuted`, `C161_pmt_refuted`, `C161_sdt_refuted`). -/
theorem C161_partial {m m' : Muxer} (hm : Reach m) (out : Bytes) :
    ((pat m).1 = .ok out → Since .pat (pat m).2 m' → held m' .pat = out) ∧
    (∀ mt, (pmt mt m).1 = .ok out → Since .pmt (pmt mt m).2 m' → held m' .pmt = out) ∧
    (∀ desc, (Ts.sdt desc m).1 = .ok out → Since .sdt (Ts.sdt desc m).2 m' → held m' .sdt = out) := by
  obtain ⟨a, b, hm⟩ := hm
  refine ⟨fun h hs => ?_, fun mt h hs => ?_, fun desc h hs => ?_⟩
  · rw [(since_keeps hs (.pat hm)).1]
    rw [pat_ok m (Hist.good hm).pat] at h ⊢
    exact Res.ok.inj h
  · rw [(since_keeps hs (.pmt mt hm)).1]
    exact pmt_held mt m out h
  · rw [(since_keeps hs (.sdt desc hm)).1]
    exact sdt_held desc m out h

example : Reach Muxer.new ∧ (∃ out, (pat Muxer.new).1 = .ok out) ∧
    Since .pat (pat Muxer.new).2 (pmt [0, 1] (Ts.sdt [1, 2] (pat Muxer.new).2).2).2 :=
  ⟨⟨0, 0, .new⟩, ⟨_, congrArg Prod.fst (pat_ok _ (Hist.good .new).pat)⟩, .pmt (by decide) _ (.sdt (by decide) _ .refl)⟩

/-- The next call of `PAT` overwrites the packet that the last one has returned: the caller now reads the new one in it, which
is another one because of the counter. -/
theorem C161_pat_refuted {m m' : Muxer} (hm : Reach m) (out : Bytes) (ho : (pat m).1 = .ok out) (hs : Since .pat (pat m).2 m') :
    ∃ out', (pat m').1 = .ok out' ∧ held (pat m').2 .pat = out' ∧ out' ≠ out := by
  obtain ⟨a, b, hm⟩ := hm
  obtain ⟨-, a', b', h', h1, -⟩ := since_keeps hs (.pat hm)
  cases h1 rfl
  obtain ⟨o1, e1, -, p1⟩ := C42_pat hm
  obtain ⟨o2, e2, -, p2⟩ := C42_pat h'
  rw [ho] at e1
  cases Res.ok.inj e1
  refine ⟨o2, e2, (C161_partial ⟨_, _, h'⟩ o2).1 e2 .refl, fun e => ?_⟩
  rw [e, p1] at p2
  simp only [Option.some.injEq, Prod.mk.injEq] at p2
  omega

example : (held (pat (pat Muxer.new).2).2 .pat)[3]? = some 0x11 := by decide +kernel

/-- The same for `PMT`. -/
theorem C161_pmt_refuted {m m' : Muxer} (hm : Reach m) (mt mt' : List Int) (out : Bytes) (hl : (pmtStreams mt).length ≤ 33)
    (hl' : (pmtStreams mt').length ≤ 33) (ho : (pmt mt m).1 = .ok out) (hs : Since .pmt (pmt mt m).2 m') :
    ∃ out', (pmt mt' m').1 = .ok out' ∧ held (pmt mt' m').2 .pmt = out' ∧ out' ≠ out := by
  obtain ⟨a, b, hm⟩ := hm
  obtain ⟨-, a', b', h', -, h1⟩ := since_keeps hs (.pmt mt hm)
  cases h1 rfl
  obtain ⟨o1, q1, e1, -, p1⟩ := C43_pmt hm mt hl
  obtain ⟨o2, q2, e2, -, p2⟩ := C43_pmt h' mt' hl'
  rw [ho] at e1
  cases Res.ok.inj e1
  refine ⟨o2, e2, (C161_partial ⟨_, _, h'⟩ o2).2.1 mt' e2 .refl, fun e => ?_⟩
  rw [e, p1] at p2
  simp only [Option.some.injEq, Prod.mk.injEq] at p2
  omega

/-- The same for `SDT`, if the descriptors are others. -/
theorem C161_sdt_refuted {m m' : Muxer} (hm : Reach m) (desc desc' out : Bytes) (hl : desc.length ≤ 163)
    (hl' : desc'.length ≤ 163) (hd : desc' ≠ desc) (ho : (Ts.sdt desc m).1 = .ok out) (hs : Since .sdt (Ts.sdt desc m).2 m') :
    ∃ out', (Ts.sdt desc' m').1 = .ok out' ∧ held (Ts.sdt desc' m').2 .sdt = out' ∧ out' ≠ out := by
  have hm0 := hm
  obtain ⟨a, b, hm⟩ := hm
  obtain ⟨-, a', b', h', -, -⟩ := since_keeps hs (.sdt desc hm)
  obtain ⟨o1, e1, -, p1⟩ := C44_sdt hm0 desc hl
  obtain ⟨o2, e2, -, p2⟩ := C44_sdt ⟨a', b', h'⟩ desc' hl'
  rw [ho] at e1
  cases Res.ok.inj e1
  refine ⟨o2, e2, (C161_partial ⟨_, _, h'⟩ o2).2.2 desc' e2 .refl, fun e => ?_⟩
  rw [e, p1] at p2
  simp only [Option.some.injEq, Prod.mk.injEq] at p2
  exact hd p2.2.symm

example : (pmtStreams [0, 1]).length ≤ 33 ∧ (pmt [0, 1] Muxer.new).1 ≠ .panic ∧ (Ts.sdt [1, 2] Muxer.new).1 ≠ .panic := by decide +kernel

end Verif.Props
