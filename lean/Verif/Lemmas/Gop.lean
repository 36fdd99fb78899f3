import Verif.Model.Gop
import Verif.Spec.Gop
namespace Verif.Gop
open Verif.Spec.Gop
variable {P : Type}

/-! ## Groups under appending a frame -/

theorem groups_snoc_key (l : List (Bool × P)) (p : P) :
    groups (l ++ [(true, p)]) = groups l ++ [[p]] := by
  induction l with
  | nil => rfl
  | cons x xs ih =>
    obtain ⟨b, q⟩ := x
    cases b
    · simpa [groups] using ih
    · have : ((xs ++ [(true, p)]).takeWhile (fun x => !x.1)) = xs.takeWhile (fun x => !x.1) := by
        clear ih
        induction xs with
        | nil => rfl
        | cons y ys ih2 => simp only [List.cons_append, List.takeWhile_cons, ih2]
      simp [groups, ih, this]

/-- Append `p` to the last list, if any. -/
def snocLast (p : P) (gs : List (List P)) : List (List P) :=
  match gs.getLast? with
  | none => []
  | some g => gs.dropLast ++ [g ++ [p]]

theorem snocLast_cons_cons (p : P) (a b : List P) (l) :
    snocLast p (a :: b :: l) = a :: snocLast p (b :: l) := by
  simp [snocLast, List.getLast?_cons_cons]
  cases h : (b :: l).getLast? <;> simp_all

theorem snocLast_cons_of_ne (p : P) (a : List P) (l : List (List P)) (h : l ≠ []) :
    snocLast p (a :: l) = a :: snocLast p l := by
  cases l with
  | nil => exact absurd rfl h
  | cons b l => exact snocLast_cons_cons p a b l

theorem groups_eq_nil (l : List (Bool × P)) (h : groups l = []) : ∀ x ∈ l, x.1 = false := by
  induction l with
  | nil => simp
  | cons x xs ih =>
    obtain ⟨b, q⟩ := x
    cases b
    · simp [groups] at h; intro y hy; simp at hy; rcases hy with rfl | hy
      · rfl
      · exact ih h y hy
    · simp [groups] at h

theorem takeWhile_all_false (l : List (Bool × P)) (h : ∀ x ∈ l, x.1 = false) :
    l.takeWhile (fun x => !x.1) = l := by
  induction l with
  | nil => rfl
  | cons x xs ih =>
    have hx := h x (by simp)
    simp [List.takeWhile_cons, hx, ih (fun y hy => h y (by simp [hy]))]

theorem takeWhile_append_of_key (l : List (Bool × P)) (p : P) (h : groups l ≠ []) :
    (l ++ [(false, p)]).takeWhile (fun x => !x.1) = l.takeWhile (fun x => !x.1) := by
  induction l with
  | nil => simp [groups] at h
  | cons x xs ih =>
    obtain ⟨b, q⟩ := x
    cases b
    · simp [groups] at h; simp [List.takeWhile_cons, ih h]
    · simp [List.takeWhile_cons]

theorem groups_snoc_inter (l : List (Bool × P)) (p : P) :
    groups (l ++ [(false, p)]) = snocLast p (groups l) := by
  induction l with
  | nil => rfl
  | cons x xs ih =>
    obtain ⟨b, q⟩ := x
    cases b
    · simpa [groups] using ih
    · by_cases hg : groups xs = []
      · have hall := groups_eq_nil xs hg
        have h1 : (xs ++ [(false, p)]).takeWhile (fun x => !x.1) = xs ++ [(false, p)] :=
          takeWhile_all_false _ (by intro y hy; simp at hy; rcases hy with hy | rfl; exact hall y hy; rfl)
        simp only [List.cons_append, groups, h1, ih, hg, takeWhile_all_false xs hall]
        simp [snocLast]
      · simp only [List.cons_append, groups, ih, takeWhile_append_of_key xs p hg]
        rw [snocLast_cons_of_ne _ _ _ hg]

/-! ## The ring buffer invariant -/

/-- The ring holds the last `n` of the (capped) groups `gs`. -/
structure Inv (n : Nat) (gs : List (List P)) (g : GopCache P) : Prop where
  hcap : g.cap = n
  hlen : g.len = (min gs.length n : Nat)
  hidx : g.index = if gs.length = 0 then (-1 : Int) else (((gs.length - 1) % n : Nat) : Int)
  hgl : g.gops.length = n
  hsome : ∀ j (h : j < gs.length), gs.length ≤ j + n → g.gops[j % n]? = some (some gs[j])
  hnone : ∀ i, gs.length ≤ i → i < n → g.gops[i]? = some none

theorem inv_new (n : Nat) : ∃ g, newGopCache (P := P) n = .ok g ∧ Inv n [] g := by
  refine ⟨_, by simp [newGopCache]; rfl, ?_⟩
  constructor
  case hnone => intro i _ h; simp [List.getElem?_replicate, h]
  all_goals simp

theorem goIndex_natCast {α} (l : List α) (i : Nat) :
    goIndex l (i : Int) = match l[i]? with | some a => .ok a | none => .panic := by
  have : ¬ ((i : Int) < 0) := by omega
  simp only [goIndex, this, if_false, Int.toNat_natCast]
  cases l[i]? <;> rfl

theorem mod_ne_of_window {n k j : Nat} (hn : 0 < n) (h1 : j < k) (h2 : k < j + n) :
    j % n ≠ k % n := by
  intro h
  have h3 : (k - j) % n = 0 := Nat.sub_mod_eq_zero_of_mod_eq h.symm
  have h4 : (k - j) % n = k - j := Nat.mod_eq_of_lt (by omega)
  omega

theorem idx_next {n : Nat} (gs : List (List P)) (g : GopCache P) (hn : 0 < n) (hi : Inv n gs g) :
    (g.index + 1).tmod g.cap = ((gs.length % n : Nat) : Int) := by
  rw [hi.hidx, hi.hcap]
  by_cases h0 : gs.length = 0
  · simp [h0]
  · simp only [h0, if_false]
    have : ((((gs.length - 1) % n : Nat) : Int) + 1) = (((gs.length - 1) % n + 1 : Nat) : Int) := by simp
    rw [this, ← Int.ofNat_tmod]
    congr 1
    rw [Nat.mod_add_mod]; congr 1; omega

theorem inv_write_key {n : Nat} (gs : List (List P)) (g : GopCache P) (p : P) (hn : 0 < n)
    (hi : Inv n gs g) :
    (g.write p true).1 = .ok () ∧ Inv n (gs ++ [[p]]) (g.write p true).2 := by
  have hne : ¬ (g.cap ≤ 0 ∨ (g.gops.length : Int) ≤ 0) := by
    rw [hi.hcap, hi.hgl]; omega
  have hix := idx_next gs g hn hi
  have hlt : gs.length % n < n := Nat.mod_lt _ hn
  have key : ∀ (g' : GopCache P), g'.cap = g.cap → g'.index = ((gs.length % n : Nat) : Int) →
      g'.len = (min (gs.length + 1) n : Nat) →
      g'.gops = g.gops.set (gs.length % n) (some [p]) → Inv n (gs ++ [[p]]) g' := by
    intro g' e1 e2 e3 e4
    constructor
    · rw [e1, hi.hcap]
    · rw [e3]; simp
    · rw [e2]; simp
    · rw [e4]; simp [hi.hgl]
    · intro j hj hw
      simp only [List.length_append, List.length_cons, List.length_nil] at hj hw
      rw [e4]
      by_cases hjk : j = gs.length
      · subst hjk; simp [hi.hgl, hlt]
      · have hj' : j < gs.length := by omega
        rw [List.getElem?_set_ne]
        · rw [hi.hsome j hj' (by omega)]
          simp [List.getElem_append, hj']
        · exact fun h => mod_ne_of_window hn hj' (by omega) h.symm
    · intro i h1 h2
      simp only [List.length_append, List.length_cons, List.length_nil] at h1
      rw [e4, List.getElem?_set_ne, hi.hnone i (by omega) h2]
      rw [Nat.mod_eq_of_lt (by omega)]; omega
  by_cases hk : gs.length < n
  · have hg : g.gops[gs.length % n]? = some none := by
      rw [Nat.mod_eq_of_lt hk]; exact hi.hnone _ (Nat.le_refl _) hk
    have hgi : goIndex g.gops ((gs.length % n : Nat) : Int) = .ok none := by
      rw [goIndex_natCast, hg]
    simp only [GopCache.write, hne, if_false, if_true, hix, hgi, Arr.write, newArray]
    refine ⟨by simp, key _ rfl rfl ?_ ?_⟩
    · simp only [hi.hlen]; omega
    · simp only [Int.toNat_natCast, List.nil_append]; rfl
  · have hg : g.gops[gs.length % n]? = some (some (gs[gs.length - n]'(by omega))) := by
      have := hi.hsome (gs.length - n) (by omega) (by omega)
      rwa [← Nat.mod_eq_sub_mod (by omega)] at this
    have hgi : goIndex g.gops ((gs.length % n : Nat) : Int) =
        .ok (some (gs[gs.length - n]'(by omega))) := by
      rw [goIndex_natCast, hg]
    simp only [GopCache.write, hne, if_false, if_true, hix, hgi, Arr.write, Arr.reset]
    refine ⟨by simp, key _ rfl rfl ?_ ?_⟩
    · simp only [hi.hlen]; omega
    · simp only [Int.toNat_natCast, List.nil_append]; rfl

/-- Append `p` to the last group unless it already holds 1025 packets. -/
def pushLast (p : P) (gs : List (List P)) : List (List P) :=
  match gs.getLast? with
  | none => []
  | some g => gs.dropLast ++ [(g ++ [p]).take 1025]

theorem map_take_snocLast (p : P) (gs : List (List P)) :
    (snocLast p gs).map (List.take 1025) = pushLast p (gs.map (List.take 1025)) := by
  simp only [snocLast, pushLast, List.getLast?_map]
  cases h : gs.getLast? with
  | none => simp
  | some g =>
    simp only [List.map_append, Option.map_some, List.map_cons, List.map_nil, List.map_dropLast]
    congr 2
    simp only [List.take_append, List.take_take, List.length_take]
    congr 1
    by_cases hl : g.length ≤ 1025
    · rw [Nat.min_eq_right hl]
    · rw [Nat.min_eq_left (by omega)]
      have : 1025 - g.length = 0 := by omega
      simp [this]

theorem inv_write_inter {n : Nat} (gs : List (List P)) (g : GopCache P) (p : P) (hn : 0 < n)
    (hb : ∀ x ∈ gs, x.length ≤ 1025) (hi : Inv n gs g) :
    ((g.write p false).1 = if (∃ x, gs.getLast? = some x ∧ x.length < 1025) then .ok () else .err .other) ∧
    ((g.write p false).1 ≠ .ok () → (g.write p false).2 = g) ∧
    Inv n (pushLast p gs) (g.write p false).2 := by
  have hne : ¬ (g.cap ≤ 0 ∨ (g.gops.length : Int) ≤ 0) := by
    rw [hi.hcap, hi.hgl]; omega
  by_cases h0 : gs.length = 0
  · have : gs = [] := List.length_eq_zero_iff.mp h0
    subst this
    have hidx : g.index = -1 := by rw [hi.hidx]; rfl
    simp only [GopCache.write, hne, hidx]
    refine ⟨by simp, by simp, ?_⟩
    simpa [pushLast] using hi
  · have hidx : g.index = (((gs.length - 1) % n : Nat) : Int) := by rw [hi.hidx]; simp [h0]
    have hge : ¬ ((((gs.length - 1) % n : Nat) : Int) < 0) := by omega
    have hg := hi.hsome (gs.length - 1) (by omega) (by omega)
    have hgi : goIndex g.gops (((gs.length - 1) % n : Nat) : Int) = .ok (some (gs[gs.length - 1]'(by omega))) := by
      rw [goIndex_natCast, hg]
    have hlast : gs.getLast? = some (gs[gs.length - 1]'(by omega)) := by
      rw [List.getLast?_eq_getElem?, List.getElem?_eq_getElem]
    have hble := hb (gs[gs.length - 1]'(by omega)) (List.getElem_mem _)
    generalize hL : gs[gs.length - 1]'(by omega) = L at *
    have hlt : (gs.length - 1) % n < g.gops.length := by rw [hi.hgl]; exact Nat.mod_lt _ hn
    simp only [GopCache.write, hne, hidx, hge, hgi, Arr.write, maxGop, if_false, hlast]
    by_cases hfull : L.length > 1024
    · have hset : g.gops.set ((gs.length - 1) % n) (some L) = g.gops := by
        apply List.ext_getElem? ; intro i
        rw [List.getElem?_set]
        split
        · next h => subst h; simp [hlt, ← hg]
        · rfl
      have hstate : ({ g with gops := g.gops.set ((gs.length - 1) % n) (some L) } : GopCache P) = g := by
        rw [hset]
      simp only [hfull, if_true, Int.toNat_natCast, Bool.false_eq_true, if_false, hset]
      refine ⟨?_, ?_, ?_⟩
      · rw [if_neg]; rintro ⟨x, hx, hxl⟩; simp at hx; subst hx; omega
      · intro _; cases g; simp_all
      · have : pushLast p gs = gs := by
          simp only [pushLast, hlast]
          rw [List.take_append_of_le_length (by omega), List.take_of_length_le (by omega)]
          have hne' : gs ≠ [] := by intro h; simp [h] at h0
          have := List.dropLast_concat_getLast hne'
          rw [List.getLast_eq_getElem, hL] at this; exact this
        rw [this]
        constructor
        · exact hi.hcap
        · exact hi.hlen
        · simp only [h0, if_false]
        · exact hi.hgl
        · exact hi.hsome
        · exact hi.hnone
    · simp only [hfull, if_false, Int.toNat_natCast, Bool.false_eq_true]
      refine ⟨?_, by simp, ?_⟩
      · rw [if_pos ⟨L, rfl, by omega⟩]
      · have hpl : pushLast p gs = gs.dropLast ++ [L ++ [p]] := by
          simp only [pushLast, hlast]
          rw [List.take_of_length_le (by simp; omega)]
        have hpll : (pushLast p gs).length = gs.length := by
          rw [hpl]; simp; omega
        constructor
        · exact hi.hcap
        · simp only [hpll]; exact hi.hlen
        · simp only [hpll, h0, if_false]
        · simp [hi.hgl]
        · intro j hj hw
          rw [hpll] at hw
          have hj' : j < gs.length := by omega
          simp only [List.getElem?_set]
          have hget : (pushLast p gs)[j] = if j = gs.length - 1 then L ++ [p] else gs[j] := by
            simp only [hpl, List.getElem_append, List.length_dropLast, List.getElem_dropLast]
            split
            · rw [if_neg (by omega)]
            · rw [if_pos (by omega)]; simp
          rw [hget]
          by_cases hjl : j = gs.length - 1
          · subst hjl; simp [hlt]
          · have hm : (gs.length - 1) % n ≠ j % n := fun h =>
              mod_ne_of_window hn (j := j) (k := gs.length - 1) (by omega) (by omega) h.symm
            simp only [hm, if_false, hjl]
            exact hi.hsome j hj' hw
        · intro i h1 h2
          rw [hpll] at h1
          simp only [List.getElem?_set]
          have : (gs.length - 1) % n ≠ i := by rw [Nat.mod_eq_of_lt (by omega)]; omega
          simp only [this, if_false]
          exact hi.hnone i h1 h2

/-! ## Sending -/

/-- Write a list of packets one after the other. -/
def sendList : List P → GoM (PSink P) Unit
  | [] => pure ()
  | p :: ps => do PSink.write p; sendList ps

theorem bind_assoc' {σ α β γ} (m : GoM σ α) (f : α → GoM σ β) (k : β → GoM σ γ) :
    (m >>= f) >>= k = m >>= fun a => f a >>= k := by
  funext s
  simp only [GoM.bind_apply]
  rcases m s with ⟨r, s'⟩
  cases r <;> rfl

theorem pure_bind' {σ α β} (a : α) (f : α → GoM σ β) : (pure a : GoM σ α) >>= f = f a := rfl

theorem bind_pure' {σ} (m : GoM σ Unit) : (m >>= fun _ => pure ()) = m := by
  funext s
  simp only [GoM.bind_apply, GoM.pure_apply]
  rcases m s with ⟨r, s'⟩
  cases r <;> rfl

theorem sendList_append (a b : List P) :
    sendList (a ++ b) = (sendList a >>= fun _ => sendList b) := by
  induction a with
  | nil => rfl
  | cons x xs ih => simp only [List.cons_append, sendList, ih, bind_assoc']

theorem arr_sendTo (a : List P) : Arr.sendTo a = sendList a := by
  induction a with
  | nil => rfl
  | cons x xs ih => simp only [Arr.sendTo, sendList, ih]

theorem frame_sendTo (f : Option P) : FrameCache.sendTo f = sendList f.toList := by
  cases f with
  | none => rfl
  | some p => simp only [FrameCache.sendTo, Option.toList, sendList, bind_pure']

theorem sendLoop_eq {n : Nat} (gs : List (List P)) (g : GopCache P) (hn : 0 < n) (hi : Inv n gs g)
    (hk : 0 < gs.length) (m i : Nat) (hmi : i + m = min gs.length n) :
    GopCache.sendLoop g ((g.index + 1).tmod g.len) m i =
      sendList ((gs.drop (gs.length - n + i)).flatten) := by
  induction m generalizing i with
  | zero =>
    have : gs.drop (gs.length - n + i) = [] := by apply List.drop_eq_nil_of_le; omega
    rw [this]; rfl
  | succ m ih =>
    have hlen := hi.hlen
    have hidx : g.index = (((gs.length - 1) % n : Nat) : Int) := by rw [hi.hidx, if_neg (by omega)]
    have hbase : (((g.index + 1).tmod g.len) + i).tmod g.len = (((gs.length - n + i) % n : Nat) : Int) := by
      rw [hidx, hlen]
      have e : ((((gs.length - 1) % n : Nat) : Int) + 1) = (((gs.length - 1) % n + 1 : Nat) : Int) := by simp
      rw [e, ← Int.ofNat_tmod]
      have e2 : ((((((gs.length - 1) % n + 1) % (min gs.length n) : Nat)) : Int) + (i : Int)) =
        ((((gs.length - 1) % n + 1) % (min gs.length n) + i : Nat) : Int) := by simp
      rw [e2, ← Int.ofNat_tmod]
      congr 1
      by_cases hc : gs.length ≤ n
      · rw [Nat.min_eq_left hc]
        have : (gs.length - 1) % n = gs.length - 1 := Nat.mod_eq_of_lt (by omega)
        rw [this]
        have : gs.length - 1 + 1 = gs.length := by omega
        rw [this, Nat.mod_self]
        have : gs.length - n = 0 := by omega
        rw [this]
        rw [Nat.mod_eq_of_lt (by omega), Nat.mod_eq_of_lt (by omega)]
      · rw [Nat.min_eq_right (by omega)]
        rw [Nat.mod_add_mod, Nat.add_assoc, Nat.mod_add_mod, ← Nat.add_assoc]
        have : gs.length - 1 + 1 + i = (gs.length - n + i) + n := by omega
        rw [this, Nat.add_mod_right]
    have hj : gs.length - n + i < gs.length := by omega
    have hs := hi.hsome (gs.length - n + i) hj (by omega)
    have hgi : goIndex g.gops (((gs.length - n + i) % n : Nat) : Int) = .ok (some gs[gs.length - n + i]) := by
      rw [goIndex_natCast, hs]
    have hdrop : gs.drop (gs.length - n + i) = gs[gs.length - n + i] :: gs.drop (gs.length - n + (i + 1)) := by
      rw [List.drop_eq_getElem_cons hj]; rfl
    simp only [GopCache.sendLoop, hbase, hgi, arr_sendTo]
    have hcast : ((i : Int) + 1) = ((i + 1 : Nat) : Int) := by simp
    rw [hcast, ih (i + 1) (by omega), hdrop, List.flatten_cons, sendList_append]

theorem gop_sendTo_eq {n : Nat} (gs : List (List P)) (g : GopCache P) (hn : 0 < n) (hi : Inv n gs g) :
    g.sendTo = sendList ((newest n gs).flatten) := by
  by_cases h0 : gs.length = 0
  · have : gs = [] := List.length_eq_zero_iff.mp h0
    subst this
    have := hi.hlen
    simp at this
    simp [GopCache.sendTo, this, newest, sendList]
  · have hne : ¬ (g.cap ≤ 0 ∨ g.len ≤ 0) := by rw [hi.hcap, hi.hlen]; omega
    simp only [GopCache.sendTo, hne, if_false]
    have hl : g.len.toNat = min gs.length n := by rw [hi.hlen]; simp
    have := sendLoop_eq gs g hn hi (by omega) (min gs.length n) 0 (by omega)
    rw [hl]
    exact this

/-! ## Whole-cache invariant -/

/-- The cache state after the history `h`. -/
def run (c : Cache P) (h : History P) : Cache P := h.foldl (fun c x => (c.write x.1 x.2).2) c

theorem run_snoc (c : Cache P) (h : History P) (x : P × Packet) :
    run c (h ++ [x]) = ((run c h).write x.1 x.2).2 := by
  simp [run]

/-- Capped groups of a history. -/
def cgroups (h : History P) : List (List P) := (groups (frames h)).map (List.take 1025)

structure CInv (n : Nat) (h : History P) (c : Cache P) : Prop where
  hmeta : c.metadata.toList = last .metadata h
  hvid : c.videoSeqHdr.toList = last .videoHdr h
  haud : c.audioSeqHdr.toList = last .audioHdr h
  hgop : 0 < n → Inv n (cgroups h) c.gop
  hzero : n = 0 → c.gop.cap = 0

theorem last_snoc (r : Role) (h : History P) (x : P × Packet) :
    last r (h ++ [x]) = if role x.2 = r then [x.1] else last r h := by
  simp only [last, List.filter_append, List.filter_cons, List.filter_nil]
  by_cases hr : role x.2 = r <;> simp [hr]

theorem frames_snoc (h : History P) (x : P × Packet) :
    frames (h ++ [x]) = frames h ++ (match role x.2 with
      | .key => [(true, x.1)]
      | .inter => [(false, x.1)]
      | _ => []) := by
  simp only [frames, List.filterMap_append, List.filterMap_cons, List.filterMap_nil]
  cases role x.2 <;> simp

theorem cgroups_key (h : History P) (x : P × Packet) (hr : role x.2 = .key) :
    cgroups (h ++ [x]) = cgroups h ++ [[x.1]] := by
  simp [cgroups, frames_snoc, hr, groups_snoc_key]

theorem cgroups_inter (h : History P) (x : P × Packet) (hr : role x.2 = .inter) :
    cgroups (h ++ [x]) = pushLast x.1 (cgroups h) := by
  simp only [cgroups, frames_snoc, hr, groups_snoc_inter, map_take_snocLast]

theorem cgroups_other (h : History P) (x : P × Packet) (h1 : role x.2 ≠ .key) (h2 : role x.2 ≠ .inter) :
    cgroups (h ++ [x]) = cgroups h := by
  simp only [cgroups, frames_snoc]
  cases hr : role x.2 <;> simp_all

theorem cgroups_bound (h : History P) : ∀ x ∈ cgroups h, x.length ≤ 1025 := by
  intro x hx
  simp only [cgroups, List.mem_map] at hx
  obtain ⟨y, _, rfl⟩ := hx
  simp; omega

theorem inv_last_open (h : History P) :
    (∃ x, (cgroups h).getLast? = some x ∧ x.length < 1025) ↔
    (∃ x, (groups (frames h)).getLast? = some x ∧ x.length < 1025) := by
  simp only [cgroups, List.getLast?_map]
  cases (groups (frames h)).getLast? with
  | none => simp
  | some g => simp only [Option.map_some, Option.some.injEq, exists_eq_left', List.length_take]; omega

/-- The packet's header does not implement the interface its type number requires. -/
def BadHeader (p : Packet) : Prop :=
  (p.type = 0 ∧ p.header.bind (·.video) = none) ∨ (p.type = 1 ∧ p.header.bind (·.audio) = none)

instance (p : Packet) : Decidable (BadHeader p) := by unfold BadHeader; infer_instance

theorem asVideo_eq (p : Packet) :
    p.asVideo = match p.header.bind (·.video) with | some v => .ok v | none => .panic := by
  unfold Packet.asVideo
  cases p.header with
  | none => rfl
  | some h => cases h.video <;> rfl

theorem asAudio_eq (p : Packet) :
    p.asAudio = match p.header.bind (·.audio) with | some v => .ok v | none => .panic := by
  unfold Packet.asAudio
  cases p.header with
  | none => rfl
  | some h => cases h.audio <;> rfl

theorem cinv_of_same {n : Nat} (h : History P) (c : Cache P) (x : P × Packet) (hi : CInv n h c)
    (hr : role x.2 = .ignored) : CInv n (h ++ [x]) c := by
  constructor
  · rw [last_snoc, hr]; simpa using hi.hmeta
  · rw [last_snoc, hr]; simpa using hi.hvid
  · rw [last_snoc, hr]; simpa using hi.haud
  · intro hn; rw [cgroups_other _ _ (by simp [hr]) (by simp [hr])]; exact hi.hgop hn
  · exact hi.hzero

theorem zero_write (c : Cache P) (hz : c.gop.cap = 0) (p : P) (b : Bool) :
    c.gop.write p b = (.ok (), c.gop) := by
  simp [GopCache.write, hz]

theorem cinv_step {n : Nat} (h : History P) (c : Cache P) (x : P × Packet) (hi : CInv n h c) :
    ((c.write x.1 x.2).1 =
      if BadHeader x.2 then .panic
      else if 0 < n ∧ role x.2 = .inter ∧
          ¬ (∃ g, (groups (frames h)).getLast? = some g ∧ g.length < 1025) then .err .other
      else .ok ()) ∧
    ((c.write x.1 x.2).1 ≠ .ok () → (c.write x.1 x.2).2 = c) ∧
    CInv n (h ++ [x]) (c.write x.1 x.2).2 := by
  obtain ⟨r, p⟩ := x
  simp only
  by_cases ht0 : p.type = 0
  · have hw : c.write r p = c.writeVideo r p := by simp [Cache.write, ht0, PktVideo]
    rw [hw]
    unfold Cache.writeVideo
    rw [asVideo_eq]
    cases hv : p.header.bind (·.video) with
    | none =>
      have hb : BadHeader p := Or.inl ⟨ht0, hv⟩
      refine ⟨by simp [hb], by simp, ?_⟩
      exact cinv_of_same h c (r, p) hi (by simp [role, ht0, hv])
    | some v =>
      have hb : ¬ BadHeader p := by simp [BadHeader, ht0, hv]
      have hrole : role p = if v.isSeqHdr then .videoHdr else if v.isKeyFrame then .key
          else if v.isInterFrame then .inter else .ignored := by simp [role, ht0, hv]
      simp only [hb, if_false]
      by_cases hs : v.isSeqHdr
      · simp only [hs, if_true] at hrole ⊢
        refine ⟨by simp [hrole], by simp, ?_⟩
        constructor
        · rw [last_snoc, hrole]; simpa using hi.hmeta
        · rw [last_snoc, hrole]; simp [FrameCache.write]
        · rw [last_snoc, hrole]; simpa using hi.haud
        · intro hn; rw [cgroups_other _ _ (by simp [hrole]) (by simp [hrole])]; exact hi.hgop hn
        · exact hi.hzero
      · simp only [hs, Bool.false_eq_true, if_false] at hrole ⊢
        by_cases hk : v.isKeyFrame
        · simp only [hk, if_true, Bool.true_or] at hrole ⊢
          by_cases hn : 0 < n
          · have hwk := inv_write_key (cgroups h) c.gop r hn (hi.hgop hn)
            refine ⟨by simp [hrole, hwk.1], by simp [hwk.1], ?_⟩
            constructor
            · rw [last_snoc, hrole]; simpa using hi.hmeta
            · rw [last_snoc, hrole]; simpa using hi.hvid
            · rw [last_snoc, hrole]; simpa using hi.haud
            · intro _; rw [cgroups_key _ _ hrole]; exact hwk.2
            · intro h0; omega
          · have hz := hi.hzero (by omega)
            rw [zero_write c hz]
            refine ⟨by simp [hn], by simp, ?_⟩
            constructor
            · rw [last_snoc, hrole]; simpa using hi.hmeta
            · rw [last_snoc, hrole]; simpa using hi.hvid
            · rw [last_snoc, hrole]; simpa using hi.haud
            · intro h; omega
            · exact fun _ => hz
        · simp only [hk, Bool.false_eq_true, if_false, Bool.false_or] at hrole ⊢
          by_cases hin : v.isInterFrame
          · simp only [hin, if_true] at hrole ⊢
            by_cases hn : 0 < n
            · have hwi := inv_write_inter (cgroups h) c.gop r hn (cgroups_bound h) (hi.hgop hn)
              simp only [inv_last_open] at hwi
              refine ⟨?_, ?_, ?_⟩
              · rw [hwi.1]
                by_cases ho : (∃ x, (groups (frames h)).getLast? = some x ∧ x.length < 1025)
                · simp only [ho, not_true_eq_false, and_false, if_true, if_false]
                · simp only [ho, not_false_eq_true, and_true, hrole, hn, and_self, if_true, if_false]
              · intro hne; have := hwi.2.1 hne; simp only [this]
              · constructor
                · rw [last_snoc, hrole]; simpa using hi.hmeta
                · rw [last_snoc, hrole]; simpa using hi.hvid
                · rw [last_snoc, hrole]; simpa using hi.haud
                · intro _; rw [cgroups_inter _ _ hrole]; exact hwi.2.2
                · intro h0; omega
            · have hz := hi.hzero (by omega)
              rw [zero_write c hz]
              refine ⟨by simp [hn], by simp, ?_⟩
              constructor
              · rw [last_snoc, hrole]; simpa using hi.hmeta
              · rw [last_snoc, hrole]; simpa using hi.hvid
              · rw [last_snoc, hrole]; simpa using hi.haud
              · intro h; omega
              · exact fun _ => hz
          · simp only [hin, Bool.false_eq_true, if_false] at hrole ⊢
            exact ⟨by simp [hrole], by simp, cinv_of_same h c (r, p) hi hrole⟩
  · by_cases ht1 : p.type = 1
    · have hw : c.write r p = c.writeAudio r p := by simp [Cache.write, ht1, PktVideo, PktAudio]
      rw [hw]
      unfold Cache.writeAudio
      rw [asAudio_eq]
      cases hv : p.header.bind (·.audio) with
      | none =>
        have hb : BadHeader p := Or.inr ⟨ht1, hv⟩
        refine ⟨by simp [hb], by simp, ?_⟩
        exact cinv_of_same h c (r, p) hi (by simp [role, ht1, hv])
      | some a =>
        have hb : ¬ BadHeader p := by simp [BadHeader, ht1, hv]
        have hrole : role p = if a.isSoundAAC ∧ a.isAACSeqHdr then .audioHdr else .ignored := by
          simp [role, ht1, hv]
        simp only [hb, if_false]
        by_cases ha : a.isSoundAAC ∧ a.isAACSeqHdr
        · simp only [ha, Bool.and_self, if_true, and_self] at hrole ⊢
          refine ⟨by simp [hrole], by simp, ?_⟩
          constructor
          · rw [last_snoc, hrole]; simpa using hi.hmeta
          · rw [last_snoc, hrole]; simpa using hi.hvid
          · rw [last_snoc, hrole]; simp [FrameCache.write]
          · intro hn; rw [cgroups_other _ _ (by simp [hrole]) (by simp [hrole])]; exact hi.hgop hn
          · exact hi.hzero
        · simp only [ha, if_false] at hrole
          have : (a.isSoundAAC && a.isAACSeqHdr) = false := by
            cases h1 : a.isSoundAAC <;> cases h2 : a.isAACSeqHdr <;> simp_all
          simp only [this, Bool.false_eq_true, if_false]
          exact ⟨by simp [hrole], by simp, cinv_of_same h c (r, p) hi hrole⟩
    · have hb : ¬ BadHeader p := by simp [BadHeader, ht0, ht1]
      by_cases ht2 : p.type = 2
      · have hw : c.write r p = (.ok (), { c with metadata := c.metadata.write r }) := by
          simp [Cache.write, ht2, PktVideo, PktAudio, PktMetadata]
        have hrole : role p = .metadata := by simp [role, ht2]
        rw [hw]
        refine ⟨by simp [hb, hrole], by simp, ?_⟩
        constructor
        · rw [last_snoc, hrole]; simp [FrameCache.write]
        · rw [last_snoc, hrole]; simpa using hi.hvid
        · rw [last_snoc, hrole]; simpa using hi.haud
        · intro hn; rw [cgroups_other _ _ (by simp [hrole]) (by simp [hrole])]; exact hi.hgop hn
        · exact hi.hzero
      · have hw : c.write r p = (.ok (), c) := by
          simp [Cache.write, ht0, ht1, ht2, PktVideo, PktAudio, PktMetadata]
        have hrole : role p = .ignored := by simp [role, ht0, ht1, ht2]
        rw [hw]
        exact ⟨by simp [hb, hrole], by simp, cinv_of_same h c (r, p) hi hrole⟩

theorem newCache_ok (n : Nat) (c : Cache P) (hc : newCache (P := P) n = .ok c) : CInv n [] c := by
  obtain ⟨g, hg, hinv⟩ := inv_new (P := P) n
  simp only [newCache, hg, Res.bind_ok, Res.pure_eq, Res.ok.injEq] at hc
  subst hc
  constructor
  · rfl
  · rfl
  · rfl
  · intro _; exact hinv
  · intro h0; rw [hinv.hcap, h0]; rfl

theorem cinv_run (n : Nat) (c : Cache P) (hc : newCache (P := P) n = .ok c) (h : History P) :
    CInv n h (run c h) := by
  have gen : ∀ (h h0 : History P) (c : Cache P), CInv n h0 c → CInv n (h0 ++ h) (run c h) := by
    intro h
    induction h with
    | nil => intro h0 c hi; simpa [run] using hi
    | cons x xs ih =>
      intro h0 c hi
      have := ih (h0 ++ [x]) _ (cinv_step h0 c x hi).2.2
      simpa [run] using this
  simpa using gen h [] c (newCache_ok n c hc)

theorem sendTo_eq {n : Nat} (h : History P) (c : Cache P) (hi : CInv n h c) :
    c.sendTo = sendList (replay n h) := by
  have hg : c.gop.sendTo = sendList ((kept n h).flatten) := by
    by_cases hn : 0 < n
    · exact gop_sendTo_eq (cgroups h) c.gop hn (hi.hgop hn)
    · have hz := hi.hzero (by omega)
      have hn0 : n = 0 := by omega
      subst hn0
      have : kept 0 h = [] := by
        simp only [kept, newest]; exact List.drop_eq_nil_of_le (by simp)
      simp [GopCache.sendTo, hz, this, sendList]
  simp only [Cache.sendTo, frame_sendTo, hi.hmeta, hi.hvid, hi.haud, hg, replay, sendList_append,
    bind_assoc']

theorem sendList_ok (l : List P) (w : PSink P) (h : ∀ i < l.length, w.plan (w.calls + i) = false) :
    sendList l w = (.ok (), { w with out := w.out ++ l, calls := w.calls + l.length }) := by
  induction l generalizing w with
  | nil => simp [sendList]
  | cons x xs ih =>
    have h0 := h 0 (by simp)
    simp only [Nat.add_zero] at h0
    simp only [sendList, GoM.bind_apply, PSink.write, h0, Bool.false_eq_true, if_false]
    rw [ih]
    · simp; omega
    · intro i hi
      have := h (i + 1) (by simp; omega)
      simp only; rw [← this]; congr 1; omega

theorem sendList_fail (l : List P) (w : PSink P) (k : Nat) (hk : k < l.length)
    (h : ∀ i < k, w.plan (w.calls + i) = false) (hf : w.plan (w.calls + k) = true) :
    sendList l w = (.err .writer, { w with out := w.out ++ l.take k, calls := w.calls + k + 1 }) := by
  induction l generalizing w k with
  | nil => simp at hk
  | cons x xs ih =>
    cases k with
    | zero =>
      simp only [Nat.add_zero] at hf
      simp [sendList, GoM.bind_apply, PSink.write, hf]
    | succ k =>
      have h0 := h 0 (by simp)
      simp only [Nat.add_zero] at h0
      simp only [sendList, GoM.bind_apply, PSink.write, h0, Bool.false_eq_true, if_false]
      rw [ih _ k]
      · simp; omega
      · simpa using hk
      · intro i hi
        have := h (i + 1) (by omega)
        simp only; rw [← this]; congr 1; omega
      · simp only; rw [← hf]; congr 1; omega

theorem arr_bound_write (g : GopCache P) (p : P) (b : Bool)
    (hg : ∀ a, some a ∈ g.gops → a.length ≤ 1025) :
    (g.write p b).2.gops.length = g.gops.length ∧
    ∀ a, some a ∈ (g.write p b).2.gops → a.length ≤ 1025 := by
  have hset : ∀ (l : List (Option (Arr P))) (i : Nat) (x : Arr P), (∀ a, some a ∈ l → a.length ≤ 1025) →
      x.length ≤ 1025 → ∀ a, some a ∈ l.set i (some x) → a.length ≤ 1025 := by
    intro l i x hl hx a ha
    rcases List.mem_or_eq_of_mem_set ha with h | h
    · exact hl a h
    · cases h; exact hx
  have hmem : ∀ (i : Int) (gop : Arr P), goIndex g.gops i = .ok (some gop) → gop.length ≤ 1025 := by
    intro i gop h
    unfold goIndex at h
    split at h
    · cases h
    · split at h
      · next hi => cases h; exact hg _ (List.mem_of_getElem? hi)
      · cases h
  unfold GopCache.write
  split
  · exact ⟨rfl, hg⟩
  · split
    · dsimp only
      split
      · refine ⟨by simp, hset _ _ _ hg ?_⟩
        simp [Arr.write, newArray, maxGop]
      · refine ⟨by simp, hset _ _ _ hg ?_⟩
        simp [Arr.write, Arr.reset, maxGop]
      · exact ⟨rfl, hg⟩
    · split
      · exact ⟨rfl, hg⟩
      · split
        · exact ⟨rfl, hg⟩
        · next gop hgi =>
          refine ⟨by simp, hset _ _ _ hg ?_⟩
          have := hmem _ _ hgi
          unfold Arr.write
          by_cases hl : List.length gop > maxGop
          · rw [if_pos hl]; exact this
          · rw [if_neg hl]; simp [maxGop] at hl ⊢; omega
        · exact ⟨rfl, hg⟩


/-- `groups` with the key flags kept. -/
def tgroups : List (Bool × P) → List (List (Bool × P))
  | [] => []
  | (true, p) :: rest => ((true, p) :: (rest.takeWhile (fun x => !x.1))) :: tgroups rest
  | (false, _) :: rest => tgroups rest

theorem tgroups_map : ∀ l : List (Bool × P), (tgroups l).map (List.map (·.2)) = groups l := by
  intro l
  induction l with
  | nil => rfl
  | cons x xs ih => obtain ⟨b, q⟩ := x; cases b <;> simp [tgroups, groups, ih]

theorem tgroups_shape : ∀ l : List (Bool × P), ∀ g ∈ tgroups l, ∃ k tail, g = (true, k) :: tail ∧ ∀ x ∈ tail, x.1 = false := by
  intro l
  induction l with
  | nil => simp [tgroups]
  | cons x xs ih =>
    obtain ⟨b, q⟩ := x
    cases b
    · simpa [tgroups] using ih
    · intro g hg
      simp only [tgroups, List.mem_cons] at hg
      rcases hg with rfl | hg
      · refine ⟨q, _, rfl, fun x hx => ?_⟩
        have := List.all_takeWhile (p := fun x : Bool × P => !x.1) (l := xs)
        rw [List.all_eq_true] at this
        simpa using this x hx
      · exact ih g hg

theorem tgroups_sublist : ∀ l : List (Bool × P), ((tgroups l).flatten).Sublist l ∧
    ((l.takeWhile (fun x => !x.1)) ++ (tgroups l).flatten).Sublist l := by
  intro l
  induction l with
  | nil => simp [tgroups]
  | cons x xs ih =>
    obtain ⟨b, q⟩ := x
    cases b
    · simp only [tgroups, List.takeWhile_cons, Bool.not_false, if_true, List.cons_append]
      exact ⟨ih.1.trans (List.sublist_cons_self _ _), ih.2.cons_cons _⟩
    · simp only [tgroups, List.takeWhile_cons, Bool.not_true, Bool.false_eq_true, if_false,
        List.nil_append, List.flatten_cons, List.cons_append, and_self]
      exact ih.2.cons_cons _


theorem full_group (k i : P) (pk pi : Packet) (hk : role pk = .key) (hi : role pi = .inter) (m : Nat) (hm : 1024 ≤ m) :
    ¬ ∃ g, (groups (frames ((k, pk) :: List.replicate m (i, pi)))).getLast? = some g ∧ g.length < 1025 := by
  have hr : ∀ m, frames (List.replicate m (i, pi)) = List.replicate m (false, i) := by
    intro m; induction m with
    | zero => rfl
    | succ m ih => simp only [frames] at ih; simp only [frames, List.replicate_succ, List.filterMap_cons, hi, ih]
  have hf : frames ((k, pk) :: List.replicate m (i, pi)) = (true, k) :: List.replicate m (false, i) := by
    rw [← hr]; simp only [frames, List.filterMap_cons, hk]
  have hg : ∀ m, groups (List.replicate m (false, i)) = [] := by
    intro m; induction m with
    | zero => rfl
    | succ m ih => simpa [List.replicate_succ, groups] using ih
  rw [hf]
  rintro ⟨g, hgl, hlt⟩
  simp only [groups, hg, List.getLast?_singleton, Option.some.injEq] at hgl
  subst hgl
  rw [takeWhile_all_false _ (fun x hx => by rw [List.eq_of_mem_replicate hx])] at hlt
  simp only [List.length_cons, List.length_map, List.length_replicate] at hlt
  omega

end Verif.Gop
