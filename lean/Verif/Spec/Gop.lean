import Verif.Model.Packet
/-!
# Specification of the GOP cache, stated on the history of written packets only
-/
namespace Verif.Spec.Gop
variable {P : Type}

/-- What a packet is to the cache, read off its type number and header answers. -/
inductive Role where
  | metadata | videoHdr | audioHdr | key | inter | ignored
  deriving DecidableEq, Repr

def role (p : Packet) : Role :=
  if p.type = 2 then .metadata
  else if p.type = 0 then
    match p.header.bind (·.video) with
    | none => .ignored
    | some v =>
      if v.isSeqHdr then .videoHdr else if v.isKeyFrame then .key
      else if v.isInterFrame then .inter else .ignored
  else if p.type = 1 then
    match p.header.bind (·.audio) with
    | none => .ignored
    | some a => if a.isSoundAAC ∧ a.isAACSeqHdr then .audioHdr else .ignored
  else .ignored

/-- A history: packet pointers with the packet contents at the time of the write. -/
abbrev History (P : Type) := List (P × Packet)

/-- The most recent packet of a role. -/
def last (r : Role) (h : History P) : List P :=
  ((h.filter (fun x => role x.2 = r)).getLast?.map (·.1)).toList

/-- The frames in arrival order, `true` marks a key frame. -/
def frames (h : History P) : List (Bool × P) :=
  h.filterMap fun x =>
    match role x.2 with
    | .key => some (true, x.1)
    | .inter => some (false, x.1)
    | _ => none

/-- The groups of pictures: each key frame with the inter frames up to the next key frame. -/
def groups : List (Bool × P) → List (List P)
  | [] => []
  | (true, p) :: rest => (p :: (rest.takeWhile (fun x => !x.1)).map (·.2)) :: groups rest
  | (false, _) :: rest => groups rest

/-- The last `n` elements. -/
def newest {α} (n : Nat) (l : List α) : List α := l.drop (l.length - n)

/-- The groups kept for a replay. -/
def kept (n : Nat) (h : History P) : List (List P) :=
  newest n ((groups (frames h)).map (List.take 1025))

/-- What a new subscriber must receive. -/
def replay (n : Nat) (h : History P) : List P :=
  last .metadata h ++ last .videoHdr h ++ last .audioHdr h ++ (kept n h).flatten

end Verif.Spec.Gop
