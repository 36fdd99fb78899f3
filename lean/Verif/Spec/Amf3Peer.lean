import Verif.Spec.Amf3
/-!
# What other AMF3 producers send, and what it means

A message is described by the choices of its producer: strings in full or as references into the strings sent
before, class descriptions ("traits") in full or as references, arrays with named and indexed members, objects
with sealed members, and dates, XML documents and byte arrays in full or as references.  Section numbers are
those of the AMF3 specification.  Not covered: dynamic and externalizable objects (C33), references to arrays
and objects (C35), empty XML documents and byte arrays (C35), integers with the sign bit set (C97), and
fractions of a second in dates.
-/
namespace Verif.Spec.Amf3
open Verif.Amf

/-- A string (1.3.2): in full, or an index into the strings sent before. -/
inductive PStr where
  | lit (s : Bytes)
  | ref (i : Nat)

def PStr.bytes : PStr → Bytes
  | .lit s => utf8 s
  | .ref i => u29 (2 * i)

def PStr.Fits : PStr → Prop
  | .lit s => s.length < 2 ^ 28
  | .ref i => i < 2 ^ 28

/-- Class descriptions (3.12): class name and names of the sealed members, or an index into the descriptions
sent before. -/
inductive PTrait where
  | new (type : PStr) (names : List PStr)
  | ref (i : Nat)

def PTrait.bytes : PTrait → Bytes
  | .new t ns => u29 (16 * ns.length + 3) ++ t.bytes ++ ns.flatMap PStr.bytes
  | .ref i => u29 (4 * i + 1)

def PTrait.Fits : PTrait → Prop
  | .new t ns => t.Fits ∧ ns.length < 2 ^ 25 ∧ ∀ n ∈ ns, n.Fits
  | .ref i => i < 2 ^ 27

/-- Values.  `again m i` is value number `i` again, under the marker `m`. -/
inductive PVal where
  | undefined
  | null
  | bool (b : Bool)
  | int (n : Nat)
  | double (bits : UInt64)
  | str (s : PStr)
  | xmlDoc (s : Bytes)
  | date (sec : Int)
  | arr (assoc : List (PStr × PVal)) (dense : List PVal)
  | obj (t : PTrait) (vals : List PVal)
  | xml (s : Bytes)
  | bytes (b : Bytes)
  | again (m : UInt8) (i : Nat)

mutual
/-- The bytes of a value (3.1-3.14). -/
def PVal.wire : PVal → Bytes
  | .undefined => [0]
  | .null => [1]
  | .bool b => [if b then 3 else 2]
  | .int n => 4 :: u29 n
  | .double f => 5 :: be64 f
  | .str s => 6 :: s.bytes
  | .xmlDoc s => 7 :: (u29 (2 * s.length + 1) ++ s)
  | .date sec => 8 :: (u29 1 ++ be64 (F64.ofInt (sec * 1000)))
  | .arr assoc dense => 9 :: (u29 (2 * dense.length + 1) ++ (pwireA assoc ++ ([1] ++ pwireL dense)))
  | .obj t vals => 10 :: (t.bytes ++ pwireL vals)
  | .xml s => 11 :: (u29 (2 * s.length + 1) ++ s)
  | .bytes b => 12 :: (u29 (2 * b.length + 1) ++ b)
  | .again m i => m :: u29 (2 * i)
def pwireL : List PVal → Bytes
  | [] => []
  | v :: vs => v.wire ++ pwireL vs
def pwireA : List (PStr × PVal) → Bytes
  | [] => []
  | (k, v) :: r => k.bytes ++ (v.wire ++ pwireA r)
end

mutual
/-- Sizes fit the fields they are sent in. -/
def PVal.Fits : PVal → Prop
  | .undefined | .null | .bool _ | .double _ => True
  | .int n => n < 2 ^ 28
  | .str s => s.Fits
  | .xmlDoc s | .xml s | .bytes s => s ≠ [] ∧ s.length < 2 ^ 28
  | .date sec => (sec * 1000).natAbs ≤ 2 ^ 53
  | .arr assoc dense => FitsA assoc ∧ dense.length < 2 ^ 28 ∧ FitsL dense
  | .obj t vals => t.Fits ∧ FitsL vals
  | .again _ i => i < 2 ^ 28
def FitsL : List PVal → Prop
  | [] => True
  | v :: vs => v.Fits ∧ FitsL vs
def FitsA : List (PStr × PVal) → Prop
  | [] => True
  | (k, v) :: r => k.Fits ∧ v.Fits ∧ FitsA r
end

/-- What has been sent so far: the non-empty strings, the complex values in the order in which they began
(`none` for arrays and objects), and the member names of the classes described (`none` for dynamic and
externalizable ones). -/
structure Sofar where
  strs : List Bytes
  vals : List (Option Val)
  classes : List (Option (List Bytes))

def Sofar.none : Sofar := ⟨[], [], []⟩

/-- The string denoted. -/
def PStr.den (t : Sofar) : PStr → Option (Bytes × Sofar)
  | .lit s => some (s, if s = [] then t else { t with strs := t.strs ++ [s] })
  | .ref i => (t.strs[i]?).map fun s => (s, t)

def denNames (t : Sofar) : List PStr → Option (List Bytes × Sofar)
  | [] => some ([], t)
  | n :: ns => match n.den t with
    | .none => .none
    | some (k, t) => match denNames t ns with
      | .none => .none
      | some (ks, t) => some (k :: ks, t)

/-- The member names denoted. -/
def PTrait.den (t : Sofar) : PTrait → Option (List Bytes × Sofar)
  | .new type ns => match type.den t with
    | .none => .none
    | some (_, t) => match denNames t ns with
      | .none => .none
      | some (ks, t) => some (ks, { t with classes := t.classes ++ [some ks] })
  | .ref i => (t.classes[i]?).join.map fun ks => (ks, t)

/-- The values a marker can refer to. -/
def KindOk (m : UInt8) : Val → Bool
  | .time _ => m = 8
  | .str _ => m = 7 ∨ m = 11
  | .bytes _ => m = 12
  | _ => false

/-- One more complex value. -/
def Sofar.add (t : Sofar) (v : Option Val) : Sofar := { t with vals := t.vals ++ [v] }

/-- A map to which the members are assigned one after the other: every name once, in the place where it first appears, with the
value sent last. -/
def lastWins (l : List (Bytes × Val)) : List (Bytes × Val) :=
  (l.map Prod.fst).eraseDups.map fun k => (k, ((l.reverse.find? fun e => e.1 == k).map Prod.snd).getD .nil)

mutual
/-- The value denoted: named members keep their names (a name sent again gets a new value), indexed ones their order. -/
def PVal.den (t : Sofar) : PVal → Option (Val × Sofar)
  | .undefined | .null => some (.nil, t)
  | .bool b => some (.bool b, t)
  | .int n => some (.uint false n, t)
  | .double f => some (.f64 f, t)
  | .str s => (s.den t).map fun (x, t) => (.str x, t)
  | .xmlDoc s | .xml s => some (.str s, t.add (some (.str s)))
  | .date sec => some (.time sec, t.add (some (.time sec)))
  | .bytes b => some (.bytes b, t.add (some (.bytes b)))
  | .again m i => match t.vals[i]? with
    | some (some v) => if KindOk m v then some (v, t) else .none
    | _ => .none
  | .arr assoc dense => match denA (t.add .none) assoc with
    | .none => .none
    | some (a, t) => match denL t dense with
      | .none => .none
      | some (d, t) => some (.ecma d (lastWins a), t)
  | .obj c vals => match c.den t with
    | .none => .none
    | some (ks, t) => match denL (t.add .none) vals with
      | .none => .none
      | some (vs, t) => if vs.length = ks.length then some (.obj (lastWins (ks.zip vs)), t) else .none
def denL (t : Sofar) : List PVal → Option (List Val × Sofar)
  | [] => some ([], t)
  | v :: vs => match v.den t with
    | .none => .none
    | some (x, t) => match denL t vs with
      | .none => .none
      | some (xs, t) => some (x :: xs, t)
/-- Names must not be empty: the empty name ends the list. -/
def denA (t : Sofar) : List (PStr × PVal) → Option (List (Bytes × Val) × Sofar)
  | [] => some ([], t)
  | (k, v) :: r => match k.den t with
    | .none => .none
    | some (k, t) => if k = [] then .none else match v.den t with
      | .none => .none
      | some (x, t) => match denA t r with
        | .none => .none
        | some (xs, t) => some ((k, x) :: xs, t)
end

/-- The integer a U29 stands for after the integer marker: 29 bits, two's complement (3.6). -/
def int29 (n : Nat) : Int := if n < 2 ^ 28 then n else n - 2 ^ 29

end Verif.Spec.Amf3
