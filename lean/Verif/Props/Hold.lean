import Verif.Props.AmfAccept
import Verif.Props.AmfReuse
import Verif.Props.Parser
import Verif.Lemmas.AmfHold
/-!
# Property C158: what a long-lived object keeps does not grow with the session

Sessions of a decoder and what it keeps are specified in `Verif/Spec/Hold.lean`.
-/
namespace Verif.Props
open Verif Verif.Amf Verif.Spec.Amf

section Amf3
open Verif.Amf3 Verif.Spec.Amf3

/-- C158 fails in AMF3: for every message (without references) that contains `t.size` things that could be referred to, a
decoder that is given this message again and again returns its values every time and keeps `t.size` things more every time. -/
theorem C158_amf3_refuted (H : Handlers) (ps : List PVal) (hp : FitsL ps) (hf : FullL ps) (vs : List Val) (t : Sofar)
    (h : denL Sofar.none ps = some (vs, t)) (n : Nat) (s : St) (eofOnEmpty : Bool) (lim : Nat → Nat) (hc : ∀ n, n ≤ lim n) :
    ∃ s', session eofOnEmpty lim (Amf3.decodeBatch H) (List.replicate n (pwireL ps)) s =
      (List.replicate n (.ok (vs, none)), s') ∧ n * t.size ≤ held s' := by
  have hlen : ps.length ≤ (pwireL ps).length := by
    clear hp h hf
    induction ps with
    | nil => simp
    | cons p r ih =>
      have : 0 < p.wire.length := by cases p <;> simp [PVal.wire]
      simp only [pwireL, List.length_append, List.length_cons]; omega
  suffices hs : ∀ u : Sofar, Match u s →
      ∃ s' u', session eofOnEmpty lim (Amf3.decodeBatch H) (List.replicate n (pwireL ps)) s =
        (List.replicate n (.ok (vs, none)), s') ∧ Match u' s' ∧ u'.size = u.size + n * t.size by
    obtain ⟨s', u', h1, h2, h3⟩ := hs _ (match_tabsOf s)
    exact ⟨s', h1, by rw [match_size h2]; omega⟩
  induction n generalizing s with
  | zero => intro u hu; exact ⟨s, u, rfl, hu, by simp⟩
  | succ n ih =>
    intro u hu
    obtain ⟨u', g1, g2⟩ := full_denL ps hf _ _ _ h u
    obtain ⟨s1, h5, h6⟩ := peer_batch H ps hp u u' vs g1 ((pwireL ps).length + 1) (by omega) []
      { s with data := pwireL ps, eofOnEmpty := eofOnEmpty, lim := lim } hc (hu.same ⟨rfl, rfl, rfl⟩) rfl
    have h7 : Amf3.decodeBatch H { s with data := pwireL ps, eofOnEmpty := eofOnEmpty, lim := lim } = (.ok (vs, none), s1) := by
      simpa [Amf3.decodeBatch] using h5
    obtain ⟨s', u'', k1, k2, k3⟩ := ih s1 u' h6
    refine ⟨s', u'', by simp [List.replicate_succ, session, h7, k1], k2, ?_⟩
    have : Sofar.none.size = 0 := rfl
    rw [k3, Nat.succ_mul]; omega

/-- The string "x" a thousand times. -/
example : ∃ s', session true id (Amf3.decodeBatch fun _ => none) (List.replicate 1000 [6, 3, 120]) (St.buffer []) =
    (List.replicate 1000 (.ok ([.str [120]], none)), s') ∧ 1000 ≤ held s' :=
  C158_amf3_refuted (fun _ => none) [.str (.lit [120])] (by simp [FitsL, PVal.Fits, PStr.Fits])
    (by simp [FullL, PVal.Full, PStr.Full]) [.str [120]] ⟨[[120]], [], []⟩ (by simp [denL, PVal.den, PStr.den, Sofar.none])
    1000 _ true id (fun _ => Nat.le_refl _)

theorem hold_bound (H : Handlers) (eofOnEmpty : Bool) (lim : Nat → Nat) (ds : List Bytes) (rs : List (Res Val)) (s s' : St) (t : Seen)
    (hs : Holds t s) (h : session eofOnEmpty lim (Amf3.decode H) ds s = (rs, s')) (hr : ∀ r ∈ rs, ∃ v, r = .ok v) :
    held s' ≤ held s + ds.flatten.length := by
  induction ds generalizing s t rs with
  | nil => simp only [session, Prod.mk.injEq] at h; rw [h.2]; simp
  | cons d ds ih =>
    rw [session] at h
    rcases h1 : Amf3.decode H { s with data := d, eofOnEmpty := eofOnEmpty, lim := lim } with ⟨r, s1⟩
    rcases h2 : session eofOnEmpty lim (Amf3.decode H) ds s1 with ⟨rs', s2⟩
    rw [h1] at h
    simp only [h2, Prod.mk.injEq] at h
    obtain ⟨rfl, rfl⟩ := h
    obtain ⟨v, rfl⟩ := hr r (by simp)
    obtain ⟨b, t1, e1, e2, e3, e4⟩ := sound_decode H t { s with data := d, eofOnEmpty := eofOnEmpty, lim := lim } v s1
      ⟨hs.strs, hs.len, hs.vals, hs.lost, hs.classes, hs.plain, hs.kinds⟩ h1
    have k1 := ih rs' s1 t1 e3 h2 fun r hr' => hr r (by simp [hr'])
    have k2 := read_size e2
    have k3 := congrArg List.length e1
    have k4 := holds_size hs
    have k5 := holds_size e3
    have k6 : s1.refs0 = s.refs0 := e4
    rw [k6] at k5
    have k7 : seenSize t1 ≤ seenSize t + b.length := k2
    simp only [List.length_append, List.flatten_cons] at k3 ⊢
    omega

/-- C158 (partial), AMF3: what a decoder keeps after any session of accepted values is at most what it has received.  Missing: it should not
grow with the session (`C158_amf3_refuted`). -/
theorem C158_amf3_bound_partial (H : Handlers) (eofOnEmpty : Bool) (lim : Nat → Nat) (ds : List Bytes) (rs : List (Res Val)) (s' : St)
    (h : session eofOnEmpty lim (Amf3.decode H) ds (St.buffer []) = (rs, s')) (hr : ∀ r ∈ rs, ∃ v, r = .ok v) :
    held s' ≤ ds.flatten.length := by
  have := hold_bound H eofOnEmpty lim ds rs _ s' Seen.none (holds_fresh [] false id) h hr
  simpa [held, fresh, St.buffer] using this

/-- Two values, the second of which refers to the string of the first. -/
example : held (session false id (Amf3.decode fun _ => none) [[6, 5, 120, 121], [9, 3, 1, 6, 0]] (St.buffer [])).2 = 2 ∧
    (session false id (Amf3.decode fun _ => none) [[6, 5, 120, 121], [9, 3, 1, 6, 0]] (St.buffer [])).1 =
      [.ok (.str [120, 121]), .ok (.ecma [.str [120, 121]] [])] := by decide +kernel

end Amf3

section Amf0
open Verif.Amf0 Verif.Spec.Amf0

/-- C158 fails in AMF0 in the same way, for every message without references and typed objects. -/
theorem C158_amf0_refuted (ps : List P0) (hp : P0FitsL ps) (hf : P0FullL ps) (vs : List Val) (t : Known)
    (h : p0denL Known.none ps = some (vs, t)) (ht : t.typed = false) (n : Nat) (lim : Nat → Nat) (hc : ∀ n, n ≤ lim n) :
    ∃ s', session false lim Amf0.decodeBatch (List.replicate n (p0wireL ps)) (St.buffer []) =
      (List.replicate n (.ok (vs, none)), s') ∧ held s' = n * t.size := by
  have hlen : ps.length ≤ (p0wireL ps).length := by
    clear hp h hf
    induction ps with
    | nil => simp
    | cons p r ih =>
      have : 0 < p.wire.length := by cases p <;> simp [P0.wire]
      simp only [p0wireL, List.length_append, List.length_cons]; omega
  suffices hs : ∀ (s : St) (u : Known), Match0 u s → u.typed = false →
      ∃ s' u', session false lim Amf0.decodeBatch (List.replicate n (p0wireL ps)) s =
        (List.replicate n (.ok (vs, none)), s') ∧ Match0 u' s' ∧ u'.typed = false ∧ u'.size = u.size + n * t.size by
    obtain ⟨s', u', h1, h2, h3, h4⟩ := hs (St.buffer []) _ (Match0.fresh [] false id) rfl
    have : Known.none.size = 0 := rfl
    exact ⟨s', h1, by rw [match0_size h2 h3]; omega⟩
  induction n with
  | zero => intro s u hu hu'; exact ⟨s, u, rfl, hu, hu', by simp⟩
  | succ n ih =>
    intro s u hu hu'
    obtain ⟨u', g1, g2, g3⟩ := full_denL ps hf _ _ _ h u
    obtain ⟨s1, h5, h6⟩ := peer0_batch ps hp u u' vs g1 ((p0wireL ps).length + 1) (by omega) []
      { s with data := p0wireL ps, eofOnEmpty := false, lim := lim } hc rfl (hu.same ⟨⟨rfl, rfl, rfl⟩, rfl⟩) rfl
    have h7 : Amf0.decodeBatch { s with data := p0wireL ps, eofOnEmpty := false, lim := lim } = (.ok (vs, none), s1) := by
      simpa [Amf0.decodeBatch] using h5
    obtain ⟨s', u'', k1, k2, k4, k3⟩ := ih s1 u' h6 (by rw [← g3 (by rw [hu']; rfl), ht])
    refine ⟨s', u'', by simp [List.replicate_succ, session, h7, k1], k2, k4, ?_⟩
    have : Known.none.size = 0 := rfl
    rw [k3, Nat.succ_mul]; omega

/-- The message {"a": null} a thousand times. -/
example : ∃ s', session false id Amf0.decodeBatch (List.replicate 1000 [3, 0, 1, 97, 5, 0, 0, 9]) (St.buffer []) =
    (List.replicate 1000 (.ok ([.obj [([97], .nil)]], none)), s') ∧ held s' = 1000 :=
  C158_amf0_refuted [.obj [([97], .null)]] (by simp [P0FitsL, P0FitsF, P0.Fits]) (by simp [P0FullL, P0FullF, P0.Full])
    [.obj [([97], .nil)]] ⟨Spec.Amf3.Sofar.none, [.obj [([97], .nil)]], false⟩
    (by simp [p0denL, P0.den, p0denF, Known.none, Known.add, Known.put]; decide +kernel) rfl 1000 id (fun _ => Nat.le_refl _)

theorem hold0_bound (eofOnEmpty : Bool) (lim : Nat → Nat) (ds : List Bytes) (rs : List (Res Val)) (s s' : St) (t : Seen0)
    (hs : Holds0 t s) (h : session eofOnEmpty lim Amf0.decode ds s = (rs, s')) (hr : ∀ r ∈ rs, ∃ v, r = .ok v) :
    held s' ≤ held s + ds.flatten.length := by
  induction ds generalizing s t rs with
  | nil => simp only [session, Prod.mk.injEq] at h; rw [h.2]; simp
  | cons d ds ih =>
    rw [session] at h
    rcases h1 : Amf0.decode { s with data := d, eofOnEmpty := eofOnEmpty, lim := lim } with ⟨r, s1⟩
    rcases h2 : session eofOnEmpty lim Amf0.decode ds s1 with ⟨rs', s2⟩
    rw [h1] at h
    simp only [h2, Prod.mk.injEq] at h
    obtain ⟨rfl, rfl⟩ := h
    obtain ⟨v, rfl⟩ := hr r (by simp)
    obtain ⟨b, t1, e1, e2, e3, e4⟩ := sound0_decode t { s with data := d, eofOnEmpty := eofOnEmpty, lim := lim } v s1
      ⟨⟨hs.amf3.strs, hs.amf3.len, hs.amf3.vals, hs.amf3.lost, hs.amf3.classes, hs.amf3.plain, hs.amf3.kinds⟩, hs.len, hs.objs, hs.arrs⟩ h1
    have k1 := ih rs' s1 t1 e3 h2 fun r hr' => hr r (by simp [hr'])
    have k2 := read0_size e2
    have k3 := congrArg List.length e1
    have k4 := holds0_size hs
    have k5 := holds0_size e3
    simp only [List.length_append, List.flatten_cons] at k3 ⊢
    omega

/-- C158 (partial), AMF0: what a decoder keeps after any session of accepted values is at most what it has received.  Missing: it should not
grow with the session (`C158_amf0_refuted`). -/
theorem C158_amf0_bound_partial (eofOnEmpty : Bool) (lim : Nat → Nat) (ds : List Bytes) (rs : List (Res Val)) (s' : St)
    (h : session eofOnEmpty lim Amf0.decode ds (St.buffer []) = (rs, s')) (hr : ∀ r ∈ rs, ∃ v, r = .ok v) :
    held s' ≤ ds.flatten.length := by
  have := hold0_bound eofOnEmpty lim ds rs _ s' Seen0.none (holds0_fresh [] false id) h hr
  simpa [held, fresh, St.buffer] using this

/-- A typed object, which is kept twice. -/
example : held (session false id Amf0.decode [[16, 0, 1, 67, 0, 0, 9], [5]] (St.buffer [])).2 = 2 ∧
    (session false id Amf0.decode [[16, 0, 1, 67, 0, 0, 9], [5]] (St.buffer [])).1 = [.ok (.typed [67] []), .ok .nil] := by decide +kernel

end Amf0

section H264
open Verif.Spec.Es

theorem announced_hdrs (b sps pps : Bytes) (hb : Record b sps pps []) (w : Sink) (n : Nat) (p : H264.Parser)
    (hs : List (Bytes × Bytes × Bytes)) (hp : SeqHdrs p hs) :
    SeqHdrs (announced b w n p) (hs ++ List.replicate n (sps, pps, [])) := by
  induction n generalizing p hs with
  | zero => simpa [announced] using hp
  | succ n ih =>
    have := ih _ _ (SeqHdrs.header w hp hb)
    simpa [announced, List.replicate_succ] using this

/-- C158 fails for the H.264 parser: a sequence header that is repeated (as encoders do before every key frame) is saved every
time, so that after `n` of them every key frame comes out behind `n` copies of the parameter sets. -/
theorem C158_h264_refuted (b sps pps : Bytes) (hb : Record b sps pps []) (w : Sink) (n : Nat) (idr : Bytes) (hi : Supported idr)
    (ht : unitType idr = 5) (hl : idr.length ≠ 1) (w2 : Sink) (hw : w2.Reliable) :
    ∃ s', H264.parse (avcc [idr]) false ⟨announced b w n .new, w2⟩ = (.ok (), s') ∧
      s'.w.out = w2.out ++ [0, 0, 0, 1, 9, 0xf0] ++ (List.replicate n (annexB [sps, pps])).flatten ++ annexB [idr] ∧
      n ≤ s'.w.out.length := by
  have hq := announced_hdrs b sps pps hb w n .new [] .new
  obtain ⟨w', h1, h2⟩ := C59_annexb _ _ hq [idr] (by simpa using hi) (by simp) (by simpa using hl) w2 hw
  have h3 : w'.out = w2.out ++ [0, 0, 0, 1, 9, 0xf0] ++ (List.replicate n (annexB [sps, pps])).flatten ++ annexB [idr] := by
    rw [h2]
    have : ∀ k, annexB ((List.replicate k (sps, pps, ([] : Bytes))).flatMap fun x => [x.1, x.2.1 ++ x.2.2]) =
        (List.replicate k (annexB [sps, pps])).flatten := by
      intro k
      induction k with
      | zero => rfl
      | succ k ih =>
        rw [List.replicate_succ, List.replicate_succ, List.flatten_cons, ← ih]
        simp [annexB]
    rw [List.nil_append, this]
    simp [accessUnit, params, annexB, isIdr, isPicture, ht]
  refine ⟨_, h1, h3, ?_⟩
  show n ≤ w'.out.length
  rw [h3]
  have : ∀ k, k ≤ (List.replicate k (annexB [sps, pps])).flatten.length := by
    intro k
    induction k with
    | zero => simp
    | succ k ih => rw [List.replicate_succ, List.flatten_cons, List.length_append]; simp [annexB] at ih ⊢; omega
  have := this n
  simp only [List.length_append]; omega

/-- A hundred headers. -/
example : ∃ s', H264.parse (avcc [[0x65, 0x23]]) false
      ⟨announced [1, 0x4d, 0, 0x1e, 0xff, 0xe1, 0, 3, 0x67, 0x4d, 0, 1, 0, 2, 0x68, 0xde] .mem 100 .new, .mem⟩ = (.ok (), s') ∧
    100 ≤ s'.w.out.length :=
  have h := C158_h264_refuted [1, 0x4d, 0, 0x1e, 0xff, 0xe1, 0, 3, 0x67, 0x4d, 0, 1, 0, 2, 0x68, 0xde] [0x67, 0x4d, 0] [0x68, 0xde]
    ⟨by simp, by decide, by simp, by decide, 1, 0x4d, 0, 0x1e, 0xff, 0xe1, 1, by decide⟩ .mem 100 [0x65, 0x23]
    ⟨by simp, by decide, by decide⟩ (by decide) (by decide) .mem Sink.mem_reliable
  h.imp fun _ h => ⟨h.1, h.2.2⟩

end H264
end Verif.Props
