import Verif.Lemmas.Gop
/-!
# Properties C01–C06: media type set and GOP cache

The specification vocabulary (`role`, `frames`, `groups`, `kept`, `replay`) is in `Verif/Spec/Gop.lean` and
mentions only the history of packets written.
-/
namespace Verif.Props
open Verif Verif.Gop Verif.Spec.Gop

/-! ## C01 -/

/-- A call on `packet.Types`. -/
inductive TypesOp where | video | audio | reset
  deriving DecidableEq

/-- Effect of one call (dispatch to the model of packet/types.go). -/
def TypesOp.apply (t : Types) : TypesOp → Types
  | .video => t.isVideo
  | .audio => t.isAudio
  | .reset => t.reset

/-- The calls made since the last `Reset`. -/
def sinceReset (ops : List TypesOp) : List TypesOp := (ops.reverse.takeWhile (· ≠ .reset)).reverse

/-- C01: `ToSlice` lists video iff marked since the last reset, then audio iff marked. -/
theorem C01_types_report_marks (ops : List TypesOp) :
    (ops.foldl TypesOp.apply Types.new).toSlice =
      (if TypesOp.video ∈ sinceReset ops then [0] else []) ++
      (if TypesOp.audio ∈ sinceReset ops then [1] else []) := by
  have hb : ∀ ops : List TypesOp, (ops.foldl TypesOp.apply Types.new).types =
      (if TypesOp.video ∈ sinceReset ops then 1 else 0) ||| (if TypesOp.audio ∈ sinceReset ops then 2 else 0) := by
    intro ops
    rw [← List.reverse_reverse ops]
    induction ops.reverse with
    | nil => rfl
    | cons x xs ih =>
      simp only [List.reverse_cons, List.foldl_append, List.foldl_cons, List.foldl_nil]
      have hs : sinceReset (xs.reverse ++ [x]) =
          if x = .reset then [] else sinceReset xs.reverse ++ [x] := by
        cases x <;> simp [sinceReset]
      cases x <;> simp only [TypesOp.apply, Types.isVideo, Types.isAudio, Types.reset, ih, hs] <;>
        by_cases h1 : TypesOp.video ∈ sinceReset xs.reverse <;>
        by_cases h2 : TypesOp.audio ∈ sinceReset xs.reverse <;> simp [h1, h2] <;> rfl
  simp only [Types.toSlice, hb ops, PktVideo, PktAudio]
  by_cases h1 : TypesOp.video ∈ sinceReset ops <;>
  by_cases h2 : TypesOp.audio ∈ sinceReset ops <;> simp [h1, h2] <;> decide

example : ([TypesOp.audio, .reset, .video, .audio, .video].foldl TypesOp.apply Types.new).toSlice = [0, 1] := by
  decide
example : ([TypesOp.video, .reset, .audio].foldl TypesOp.apply Types.new).toSlice = [1] := by decide

/-! ## Sample packets for the non-vacuity examples -/

def sampleVideo (key inter seq : Bool) : Packet :=
  { type := 0, header := some { video := some ⟨key, inter, seq, false, true, 7, 0⟩, audio := none } }
def sampleAacHdr : Packet :=
  { type := 1, header := some { video := none, audio := some ⟨10, 0, true, false, true⟩ } }
/-- metadata, video header, audio header, an early inter frame, and three groups. -/
def sampleHistory : History Nat :=
  [(0, { type := 2 }), (1, sampleVideo true false true), (2, sampleAacHdr), (3, sampleVideo false true false),
   (4, sampleVideo true false false), (5, sampleVideo false true false), (6, sampleVideo true false false),
   (7, sampleVideo true false false), (8, sampleVideo false true false), (9, { type := 7 })]

/-! ## C02 -/

variable {P : Type}

/-- C02: for every capacity and history, a subscriber whose writer works receives exactly `replay n h`. -/
theorem C02_replay (n : Nat) (c : Cache P) (hc : newCache n = .ok c) (h : History P) (w : PSink P)
    (hw : ∀ k, w.plan k = false) :
    (run c h).sendTo w =
      (.ok (), { w with out := w.out ++ replay n h, calls := w.calls + (replay n h).length }) := by
  rw [sendTo_eq h _ (cinv_run n c hc h)]
  exact sendList_ok _ _ (fun i _ => hw _)

/-- `NewCache` succeeds for every non-negative capacity and panics for a negative one. -/
theorem C02_newCache_total (n : Int) : (∃ c : Cache P, newCache n = .ok c) ↔ 0 ≤ n := by
  simp only [newCache, newGopCache]
  by_cases h : n < 0
  · simp [h]
  · simp [h]; omega

/-- With capacity 2 the oldest of three groups (4,5) is gone and the early inter frame 3 was rejected. -/
example : replay 2 sampleHistory = [0, 1, 2, 6, 7, 8] := by decide
example : ∃ c : Cache Nat, newCache 2 = .ok c ∧ ((run c sampleHistory).sendTo { out := [] }).2.out = [0, 1, 2, 6, 7, 8] :=
  ⟨_, rfl, by decide⟩

/-! ## C03 -/

/-- C03: the cache object never holds more than `n` groups of at most 1025 packets, whatever is written,
and a replay to a working writer sends at most `1025*n + 3` packets. -/
theorem C03_bounded (n : Nat) (c : Cache P) (hc : newCache n = .ok c) (h : History P) :
    (run c h).gop.gops.length = n ∧
    (∀ a, some a ∈ (run c h).gop.gops → a.length ≤ 1025) ∧
    ∀ w : PSink P, (∀ k, w.plan k = false) →
      ((run c h).sendTo w).2.out.length ≤ w.out.length + (1025 * n + 3) := by
  have base : c.gop.gops.length = n ∧ ∀ a, some a ∈ c.gop.gops → a.length ≤ 1025 := by
    simp [newCache, newGopCache] at hc
    have : ¬ ((n : Int) < 0) := by omega
    simp [this] at hc
    subst hc
    simp
  have step : ∀ (c : Cache P) (x : P × Packet),
      (c.gop.gops.length = n ∧ ∀ a, some a ∈ c.gop.gops → a.length ≤ 1025) →
      ((c.write x.1 x.2).2.gop.gops.length = n ∧ ∀ a, some a ∈ (c.write x.1 x.2).2.gop.gops → a.length ≤ 1025) := by
    intro c x hx
    unfold Cache.write Cache.writeVideo Cache.writeAudio
    repeat' split
    all_goals first
      | exact hx
      | (next vh _ _ _ _ _ _ hgw =>
          have := arr_bound_write c.gop x.1 vh.isKeyFrame hx.2
          rw [hgw] at this
          exact ⟨this.1.trans hx.1, this.2⟩)
  have all : ∀ (h : History P) (c : Cache P),
      (c.gop.gops.length = n ∧ ∀ a, some a ∈ c.gop.gops → a.length ≤ 1025) →
      ((run c h).gop.gops.length = n ∧ ∀ a, some a ∈ (run c h).gop.gops → a.length ≤ 1025) := by
    intro h
    induction h with
    | nil => intro c hx; exact hx
    | cons x xs ih => intro c hx; exact ih _ (step c x hx)
  refine ⟨(all h c base).1, (all h c base).2, fun w hw => ?_⟩
  rw [C02_replay n c hc h w hw]
  have hk : ((kept n h).flatten).length ≤ 1025 * n := by
    have h1 : (kept n h).length ≤ n := by simp [kept, newest]; omega
    have h2 : ∀ x ∈ kept n h, x.length ≤ 1025 := fun x hx => by
      have := List.mem_of_mem_drop hx
      exact cgroups_bound h x this
    have : ∀ l : List (List P), (∀ x ∈ l, x.length ≤ 1025) → l.flatten.length ≤ 1025 * l.length := by
      intro l hl
      induction l with
      | nil => simp
      | cons y ys ih =>
        have a := hl y (by simp)
        have b := ih (fun x hx => hl x (by simp [hx]))
        simp only [List.flatten_cons, List.length_append, List.length_cons]; omega
    exact Nat.le_trans (this _ h2) (Nat.mul_le_mul_left _ h1)
  have hl : ∀ r, (last r h).length ≤ 1 := by
    intro r; unfold last
    cases (List.filter (fun x => decide (role x.2 = r)) h).getLast?.map (·.1) <;> simp
  have a := hl .metadata
  have b := hl .videoHdr
  have d := hl .audioHdr
  simp only [replay, List.length_append]
  omega

example : ((kept 2 sampleHistory).map List.length) = [1, 2] := by decide

/-! ## C04 -/

/-- C04: what is replayed after the three header packets is a sequence of groups, each of which is one key
frame followed by inter frames only, and the groups together are a subsequence of the frames written
(nothing reordered or duplicated). -/
theorem C04_decodable (n : Nat) (c : Cache P) (hc : newCache n = .ok c) (h : History P) (w : PSink P)
    (hw : ∀ k, w.plan k = false) :
    ∃ gs : List (List (Bool × P)),
      ((run c h).sendTo w).2.out = w.out ++ (last .metadata h ++ last .videoHdr h ++ last .audioHdr h) ++
        (gs.flatten).map (·.2) ∧
      (∀ g ∈ gs, ∃ k tail, g = (true, k) :: tail ∧ ∀ x ∈ tail, x.1 = false) ∧
      gs.flatten.Sublist (frames h) := by
  refine ⟨newest n ((tgroups (frames h)).map (List.take 1025)), ?_, ?_, ?_⟩
  · rw [C02_replay n c hc h w hw]
    simp only [replay, kept, newest, ← tgroups_map, List.map_flatten, List.map_drop, List.length_map,
      List.append_assoc, List.map_map]
    congr 6
    apply List.map_congr_left
    intro a _
    simp [List.map_take]
  · intro g hg
    have := List.mem_of_mem_drop hg
    simp only [List.mem_map] at this
    obtain ⟨g', hg', rfl⟩ := this
    obtain ⟨k, tail, rfl, ht⟩ := tgroups_shape _ g' hg'
    exact ⟨k, tail.take 1024, rfl, fun x hx => ht x (List.mem_of_mem_take hx)⟩
  · have hsub : ∀ l : List (List (Bool × P)), (l.map (List.take 1025)).flatten.Sublist l.flatten := by
      intro l
      induction l with
      | nil => simp
      | cons a as ih => simp only [List.map_cons, List.flatten_cons]; exact (List.take_sublist _ _).append ih
    have hd : ∀ (m : Nat) (l : List (List (Bool × P))), (l.drop m).flatten.Sublist l.flatten := by
      intro m l
      conv => rhs; rw [← List.take_append_drop m l, List.flatten_append]
      exact List.sublist_append_right _ _
    exact (hd _ _).trans ((hsub _).trans (tgroups_sublist _).1)

/-! ## C05 -/

/-- C05: the exact outcome of `Write` after any history, and an unsuccessful write changes nothing.
`BadHeader` (a packet whose header lacks the interface its type requires) is the only panic. -/
theorem C05_write_outcome (n : Nat) (c : Cache P) (hc : newCache n = .ok c) (h : History P) (r : P) (p : Packet) :
    (((run c h).write r p).1 =
      if BadHeader p then .panic
      else if 0 < n ∧ role p = .inter ∧
          ¬ (∃ g, (groups (frames h)).getLast? = some g ∧ g.length < 1025) then .err .other
      else .ok ()) ∧
    (((run c h).write r p).1 ≠ .ok () → ((run c h).write r p).2 = run c h) := by
  have := cinv_step h _ (r, p) (cinv_run n c hc h)
  exact ⟨this.1, this.2.1⟩

/-- With capacity 0 frames are dropped silently and nothing but headers is replayed. -/
theorem C05_disabled (c : Cache P) (hc : newCache 0 = .ok c) (h : History P) (r : P) (p : Packet)
    (hp : ¬ BadHeader p) : ((run c h).write r p).1 = .ok () ∧ kept 0 h = [] := by
  have := (C05_write_outcome 0 c hc h r p).1
  refine ⟨by simp [this, hp], ?_⟩
  simp only [kept, newest]; exact List.drop_eq_nil_of_le (by simp)

/-- An inter frame before any key frame is refused. -/
example : ∃ c : Cache Nat, newCache 1 = .ok c ∧ (c.write 0 (sampleVideo false true false)).1 = .err .other :=
  ⟨_, rfl, by decide⟩
/-- An inter frame after a key frame is accepted. -/
example : ∃ c : Cache Nat, newCache 1 = .ok c ∧
    ((run c [(0, sampleVideo true false false)]).write 1 (sampleVideo false true false)).1 = .ok () :=
  ⟨_, rfl, by decide⟩
/-- The 1026th packet of a group is refused. -/
example (c : Cache Nat) (hc : newCache 1 = .ok c) :
    ((run c ((0, sampleVideo true false false) :: List.replicate 1024 (1, sampleVideo false true false))).write 2
      (sampleVideo false true false)).1 = .err .other := by
  rw [(C05_write_outcome 1 c hc _ 2 (sampleVideo false true false)).1, if_neg (by decide), if_pos]
  exact ⟨by decide, by decide, full_group 0 1 _ _ (by decide) (by decide) 1024 (by omega)⟩

/-! ## C06 -/

/-- C06: if the subscriber's writer fails for the first time at its `k`-th call of this replay, `SendTo`
returns that error and exactly the first `k` packets were delivered.  `SendTo` has no access to change
the cache (its model returns none), so the next replay is again `replay n h`. -/
theorem C06_failing_writer (n : Nat) (c : Cache P) (hc : newCache n = .ok c) (h : History P) (w : PSink P)
    (k : Nat) (hk : k < (replay n h).length) (hok : ∀ i < k, w.plan (w.calls + i) = false)
    (hfail : w.plan (w.calls + k) = true) :
    (run c h).sendTo w =
      (.err .writer, { w with out := w.out ++ (replay n h).take k, calls := w.calls + k + 1 }) := by
  rw [sendTo_eq h _ (cinv_run n c hc h)]
  exact sendList_fail _ _ _ hk hok hfail

/-- If the writer survives the whole replay the replay is complete, even if it would fail later. -/
theorem C06_complete (n : Nat) (c : Cache P) (hc : newCache n = .ok c) (h : History P) (w : PSink P)
    (hok : ∀ i < (replay n h).length, w.plan (w.calls + i) = false) :
    (run c h).sendTo w =
      (.ok (), { w with out := w.out ++ replay n h, calls := w.calls + (replay n h).length }) := by
  rw [sendTo_eq h _ (cinv_run n c hc h)]
  exact sendList_ok _ _ hok

example : ∃ c : Cache Nat, newCache 2 = .ok c ∧
    ((run c sampleHistory).sendTo { out := [], plan := fun k => k == 4 }).2.out = [0, 1, 2, 6] :=
  ⟨_, rfl, by decide⟩

end Verif.Props
