import Verif.Spec.TsTune
/-!
# Versions of tables

The tables of a stream are repeated all the time, so a receiver looks at a section only if its version number is not the one it has
already (ISO/IEC 13818-1, 2.4.4.5 and 2.4.4.9: the number is incremented whenever the definition changes).
-/
namespace Verif.Spec.Ts
open Verif Verif.Ts

/-- The section in a packet of a PID and its version number: five bits behind two reserved ones, in front of the bit that says
"current". -/
def tableOf (pid : Nat) (t : TsPacket) : Option (Nat × Section) :=
  if t.pid == pid then (parseSection t.payload).map fun s => ((t.payload.getD 6 0).toNat / 2 % 32, s) else none

/-- What a receiver knows after a packet. -/
def look (pid : Nat) (known : Option (Nat × Section)) (t : TsPacket) : Option (Nat × Section) :=
  match tableOf pid t with
  | none => known
  | some (v, s) => if known.map (·.1) = some v then known else some (v, s)

/-- What a receiver knows of the table on a PID after some packets. -/
def follow (pid : Nat) (ps : List TsPacket) : Option (Nat × Section) := ps.foldl (look pid) none

/-- The streams in a program map table. -/
def streamsOf (k : Option (Nat × Section)) : Option (List (Nat × Nat)) := k.bind fun k => (parsePmt k.2.body).map (·.2)

/-- `Sent y x`: from the mixer `y` to the mixer `x` there have been `SetTsHeader` and `Mux` calls that succeeded, in any order and mixed
with any calls that write nothing. -/
inductive Sent (y : Mixer) : Mixer → Prop
  | start : Sent y y
  | silent {x} (o : MixOp) : Sent y x → (o.after x).ts = x.ts → Sent y (o.after x)
  | tables {x} : Sent y x → x.setTsHeader.1 = .ok () → Sent y x.setTsHeader.2
  | mux {x} (p : Packet) : Sent y x → (x.mux p).1 = .ok () → Sent y (x.mux p).2.1

end Verif.Spec.Ts
