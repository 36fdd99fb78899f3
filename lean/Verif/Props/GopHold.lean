import Verif.Spec.GopHold
import Verif.Props.Gop
/-!
# Property C167: the cache holds packets as they were written
-/
namespace Verif.Props
open Verif Verif.Gop Verif.Spec.Gop

/-- The cache after the actions: `Cache.Write` gets the pointer and looks at the object. -/
def cacheAfter (c : Cache Nat) : List Act → (Nat → Packet) → Cache Nat
  | [], _ => c
  | .fill a p :: acts, o => cacheAfter c acts (fun b => if b = a then p else o b)
  | .give a :: acts, o => cacheAfter (c.write a (o a)).2 acts o

/-- What a subscriber sees who is served by `SendTo` after the actions: the objects behind the pointers. -/
def sees (c : Cache Nat) (acts : List Act) (o : Nat → Packet) : List Packet :=
  (((cacheAfter c acts o).sendTo { out := [] }).2.out).map (Act.objects acts o)

/-- The pointers given, with the contents at that moment. -/
def pointers : List Act → (Nat → Packet) → History Nat
  | [], _ => []
  | .fill a p :: acts, o => pointers acts (fun b => if b = a then p else o b)
  | .give a :: acts, o => (a, o a) :: pointers acts o

theorem cacheAfter_run (acts : List Act) : ∀ (c : Cache Nat) (o : Nat → Packet), cacheAfter c acts o = run c (pointers acts o) := by
  induction acts with
  | nil => intros; rfl
  | cons x acts ih => cases x <;> intro c o <;> simp [cacheAfter, pointers, ih, run]

theorem pointers_given (acts : List Act) : ∀ o : Nat → Packet, (pointers acts o).map (·.2) = Act.given acts o := by
  induction acts with
  | nil => intros; rfl
  | cons x acts ih => cases x <;> intro o <;> simp [Act.given, pointers, ih]

theorem objects_unfilled (acts : List Act) : ∀ (o : Nat → Packet) (a : Nat), (∀ p, Act.fill a p ∉ acts) → Act.objects acts o a = o a := by
  induction acts with
  | nil => intros; rfl
  | cons x acts ih =>
    intro o a h
    have h' : ∀ p, Act.fill a p ∉ acts := fun p hp => h p (List.mem_cons_of_mem _ hp)
    cases x with
    | fill b q =>
      rw [Act.objects, ih _ a h']
      have : a ≠ b := by
        rintro rfl
        exact h q (List.mem_cons_self)
      simp [this]
    | give b => rw [Act.objects, ih _ a h']

theorem pointers_objects (acts : List Act) : ∀ o : Nat → Packet, Act.OnceOnly acts →
    ∀ x ∈ pointers acts o, Act.objects acts o x.1 = x.2 := by
  induction acts with
  | nil => intro o _ x hx; simp [pointers] at hx
  | cons y acts ih =>
    intro o h x hx
    cases y with
    | fill a p => exact ih _ h x hx
    | give a =>
      rw [pointers, List.mem_cons] at hx
      rcases hx with rfl | hx
      · exact objects_unfilled acts o a h.1
      · exact ih _ h.2 x hx

section
variable {P Q : Type} (f : P → Q)

theorem last_map (r : Role) (h : History P) : last r (h.map fun x => (f x.1, x.2)) = (last r h).map f := by
  simp only [last, List.filter_map, List.getLast?_map, Option.map_map, Function.comp_def]
  cases (List.filter (fun x => decide (role x.2 = r)) h).getLast? <;> rfl

theorem frames_map (h : History P) : frames (h.map fun x => (f x.1, x.2)) = (frames h).map fun x => (x.1, f x.2) := by
  induction h with
  | nil => rfl
  | cons x h ih =>
    simp only [frames, List.map_cons, List.filterMap_cons] at ih ⊢
    rw [ih]
    cases role x.2 <;> rfl

theorem groups_map (l : List (Bool × P)) : groups (l.map fun x => (x.1, f x.2)) = (groups l).map (List.map f) := by
  induction l with
  | nil => rfl
  | cons x l ih =>
    obtain ⟨b, p⟩ := x
    cases b with
    | true =>
      simp only [List.map_cons, groups, ih, List.takeWhile_map, List.map_map, Function.comp_def]
    | false => simpa [groups] using ih

theorem replay_map (n : Nat) (h : History P) : replay n (h.map fun x => (f x.1, x.2)) = (replay n h).map f := by
  simp only [replay, last_map, kept, frames_map, groups_map, newest, List.map_append, List.map_flatten, List.map_map, List.map_drop, List.length_map]
  congr 3
  simp [Function.comp_def, List.map_take]
end

theorem sees_eq (n : Nat) (c : Cache Nat) (hc : newCache n = .ok c) (acts : List Act) (o : Nat → Packet) :
    sees c acts o = (replay n (pointers acts o)).map (Act.objects acts o) := by
  rw [sees, cacheAfter_run, C02_replay n c hc _ _ (fun _ => rfl)]
  simp

/-- C167 (partial): a subscriber who is served after any sequence of writes receives what was written, as it was at that moment,
provided the program does not fill a packet again that it gave to the cache. -/
theorem C167_as_written_partial (n : Nat) (c : Cache Nat) (hc : newCache n = .ok c) (acts : List Act) (o : Nat → Packet)
    (h : Act.OnceOnly acts) : sees c acts o = mustReceive n (Act.given acts o) := by
  rw [sees_eq n c hc, ← replay_map, mustReceive, ← pointers_given, List.map_map]
  congr 1
  apply List.map_congr_left
  intro x hx
  simp [pointers_objects acts o h x hx]

theorem objects_loop (a : Nat) (ps : List Packet) : ∀ (o : Nat → Packet) (l : Packet), ps.getLast? = some l →
    Act.objects (Act.loop a ps) o a = l := by
  induction ps with
  | nil => intro o l h; simp at h
  | cons p ps ih =>
    intro o l h
    have e : Act.loop a (p :: ps) = .fill a p :: .give a :: Act.loop a ps := rfl
    rw [e, Act.objects, Act.objects]
    cases ps with
    | nil =>
      simp at h
      simp [Act.loop, Act.objects, h]
    | cons q ps => exact ih _ l (by simpa using h)

theorem pointers_loop (a : Nat) (ps : List Packet) : ∀ o : Nat → Packet, pointers (Act.loop a ps) o = ps.map fun p => (a, p) := by
  induction ps with
  | nil => intro o; rfl
  | cons p ps ih =>
    intro o
    have e : Act.loop a (p :: ps) = .fill a p :: .give a :: Act.loop a ps := rfl
    rw [e, pointers, pointers, ih]
    simp

/-- C167 fails for a program that reads every packet into the same object, as `packet.Reader` invites to: the subscriber
receives the right number of packets, and every one of them is the packet written last. -/
theorem C167_one_object_refuted (n : Nat) (c : Cache Nat) (hc : newCache n = .ok c) (a : Nat) (ps : List Packet) (l : Packet)
    (hl : ps.getLast? = some l) (o : Nat → Packet) :
    sees c (Act.loop a ps) o = List.replicate (mustReceive n ps).length l := by
  rw [sees_eq n c hc, pointers_loop]
  have h1 := replay_map (fun _ : Packet => a) n (ps.map fun p => (p, p))
  rw [List.map_map] at h1
  simp only [Function.comp_def] at h1
  rw [h1, List.map_map, mustReceive, List.eq_replicate_iff]
  refine ⟨by simp, ?_⟩
  intro x hx
  obtain ⟨y, -, rfl⟩ := List.mem_map.1 hx
  exact objects_loop a ps o l hl

/-- Three packets: a video header, a key frame, an inter frame. -/
def threePackets : List Packet := [sampleVideo true false true, sampleVideo true false false, sampleVideo false true false]

example : ∃ c : Cache Nat, newCache 1 = .ok c ∧ sees c (Act.loop 5 threePackets) (fun _ => { type := 7 }) =
    [sampleVideo false true false, sampleVideo false true false, sampleVideo false true false] ∧ mustReceive 1 threePackets = threePackets :=
  ⟨_, rfl, C167_one_object_refuted 1 _ rfl 5 threePackets _ rfl _, by decide⟩

/-- With an object for each packet all is well. -/
def threeActs : List Act := [.fill 0 (sampleVideo true false true), .give 0, .fill 1 (sampleVideo true false false), .give 1,
  .fill 2 (sampleVideo false true false), .give 2]

example : ∃ c : Cache Nat, newCache 1 = .ok c ∧ sees c threeActs (fun _ => { type := 7 }) = threePackets := by
  exact ⟨_, rfl, (C167_as_written_partial 1 _ rfl threeActs _ (by simp [threeActs, Act.OnceOnly])).trans (by decide)⟩

end Verif.Props
