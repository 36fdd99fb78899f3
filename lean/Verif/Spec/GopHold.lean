import Verif.Spec.Gop
/-!
# A program that fills packets and writes them to a cache

The packets of the program are objects with numbers.  What has been written is recorded by contents.
-/
namespace Verif.Spec.Gop

/-- What the program does: fill the object `a` (for example with the `Read` of a `packet.Reader`), or give it to the cache. -/
inductive Act where
  | fill (a : Nat) (p : Packet)
  | give (a : Nat)

/-- The objects after the actions. -/
def Act.objects : List Act → (Nat → Packet) → Nat → Packet
  | [], o => o
  | .fill a p :: acts, o => Act.objects acts (fun b => if b = a then p else o b)
  | .give _ :: acts, o => Act.objects acts o

/-- The packets given to the cache, as they were at that moment. -/
def Act.given : List Act → (Nat → Packet) → List Packet
  | [], _ => []
  | .fill a p :: acts, o => Act.given acts (fun b => if b = a then p else o b)
  | .give a :: acts, o => o a :: Act.given acts o

/-- No object is filled again once it was given to the cache. -/
def Act.OnceOnly : List Act → Prop
  | [] => True
  | .fill _ _ :: acts => Act.OnceOnly acts
  | .give a :: acts => (∀ p, Act.fill a p ∉ acts) ∧ Act.OnceOnly acts

/-- What a new subscriber must receive, by contents. -/
def mustReceive (n : Nat) (ps : List Packet) : List Packet := replay n (ps.map fun p => (p, p))

/-- One object for all packets: it is filled and given to the cache, again and again. -/
def Act.loop (a : Nat) (ps : List Packet) : List Act := ps.flatMap fun p => [.fill a p, .give a]

end Verif.Spec.Gop
