import Verif.Spec.AmfAccept
/-!
# What the bytes sent for a value must be

`Denotes v b`: the bytes `b` are, by the specification, one AMF3 value, sent without references, that stands for `v`.  `Denotes0`
is the same for AMF0.  A number may be sent as an integer or a double, a length in more bytes than needed, the members of an object
in any order.  Section numbers are those of the two specifications.
-/
namespace Verif.Spec.Amf3
open Verif.Amf

/-- The number that an integer stands for: 29 bits with a sign (3.6). -/
def signed (n : Nat) : Int := if n < 2 ^ 28 then n else n - 2 ^ 29

/-- A string sent in full (1.3.2). -/
inductive Lit : Bytes → Bytes → Prop
  | lit {s u} : IsU29 u (2 * s.length + 1) → Lit s (u ++ s)

/-- Strings sent in full, one after the other. -/
inductive Lits : List Bytes → Bytes → Prop
  | nil : Lits [] []
  | cons {k ks b c} : Lit k b → Lits ks c → Lits (k :: ks) (b ++ c)

/-- The integer `i`, as an integer (3.6) or as the nearest double (3.7). -/
inductive Number : Int → Bytes → Prop
  | int {i u n} : IsU29 u n → i = signed n → Number i (4 :: u)
  | double {i f} : Spec.F64.Nearest f i 1 → Number i (5 :: be64 f)

mutual
inductive Denotes : Val → Bytes → Prop
  | undefined : Denotes .nil [0]
  | null : Denotes .nil [1]
  | no : Denotes (.bool false) [2]
  | yes : Denotes (.bool true) [3]
  | int {w i b} : Number i b → Denotes (.int w i) b
  | uint {w n b} : Number (n : Nat) b → Denotes (.uint w n) b
  | double (f : UInt64) : Denotes (.f64 f) (5 :: be64 f)
  | str {s b} : Lit s b → Denotes (.str s) (6 :: b)
  /-- Milliseconds since 1970 (3.10). -/
  | date {sec u f} : IsU29 u 1 → Spec.F64.IsInt f (sec * 1000) → Denotes (.time sec) (8 :: (u ++ be64 f))
  /-- No associative part (3.11). -/
  | arr {xs u e b} : IsU29 u (2 * xs.length + 1) → Lit [] e → DenotesL xs b → Denotes (.arr xs) (9 :: (u ++ (e ++ b)))
  /-- An anonymous class, with all members sealed (3.12). -/
  | obj {kvs u n ks b} {l : List (Bytes × Val)} : l.Perm kvs → IsU29 u (16 * l.length + 3) → Lit [] n → Lits (l.map Prod.fst) ks → DenotesL (l.map Prod.snd) b →
      Denotes (.obj kvs) (10 :: (u ++ (n ++ (ks ++ b))))
  | typed {name kvs u n ks b} {l : List (Bytes × Val)} : l.Perm kvs → IsU29 u (16 * l.length + 3) → Lit name n → Lits (l.map Prod.fst) ks → DenotesL (l.map Prod.snd) b →
      Denotes (.typed name kvs) (10 :: (u ++ (n ++ (ks ++ b))))
  | bytes {x u} : IsU29 u (2 * x.length + 1) → Denotes (.bytes x) (12 :: (u ++ x))
/-- Values one after the other. -/
inductive DenotesL : List Val → Bytes → Prop
  | nil : DenotesL [] []
  | cons {v vs b c} : Denotes v b → DenotesL vs c → DenotesL (v :: vs) (b ++ c)
end

mutual
/-- Values for which `Encode` does what it should: sizes fit the length fields; integers of a kind with at most 32 bits are not
negative ones down to -536870911 (C32) and not from 2^28 to 536870910 (C97); 64-bit integers are such; dates are within 285000 years
of 1970. -/
def Sendable : Val → Prop
  | .nil | .bool _ | .f64 _ => True
  | .int false i => (0 ≤ i ∧ i < 268435456 ∨ i < -536870911 ∨ 536870911 ≤ i) ∧ i.natAbs < 2 ^ 64
  | .int true i => i.natAbs < 2 ^ 64
  | .uint false n => (n < 268435456 ∨ 536870911 ≤ n) ∧ n < 2 ^ 64
  | .uint true n => n < 2 ^ 64
  | .str s => s.length < 2 ^ 28
  | .bytes b => b.length < 2 ^ 28
  | .time sec => (sec * 1000).natAbs ≤ 2 ^ 53
  | .arr xs => xs.length < 2 ^ 28 ∧ SendableL xs
  | .obj kvs => kvs.length < 2 ^ 25 ∧ SendableF kvs
  | .typed t kvs => t.length < 2 ^ 28 ∧ kvs.length < 2 ^ 25 ∧ SendableF kvs
  | _ => False
def SendableL : List Val → Prop
  | [] => True
  | v :: vs => Sendable v ∧ SendableL vs
def SendableF : List (Bytes × Val) → Prop
  | [] => True
  | (k, v) :: r => k.length < 2 ^ 28 ∧ Sendable v ∧ SendableF r
end

end Verif.Spec.Amf3

namespace Verif.Spec.Amf0
open Verif.Amf

mutual
inductive Denotes0 : Val → Bytes → Prop
  | number (f : UInt64) : Denotes0 (.f64 f) (0 :: be64 f)
  | int {w i f} : Spec.F64.Nearest f i 1 → Denotes0 (.int w i) (0 :: be64 f)
  | uint {w n f} : Spec.F64.Nearest f (n : Nat) 1 → Denotes0 (.uint w n) (0 :: be64 f)
  | no : Denotes0 (.bool false) [1, 0]
  | yes : Denotes0 (.bool true) [1, 1]
  | str {s} : s.length < 65536 → Denotes0 (.str s) (2 :: utf8 s)
  | longStr {s} : s.length < 2 ^ 32 → Denotes0 (.str s) (12 :: utf8Long s)
  | xml {s} : s.length < 2 ^ 32 → Denotes0 (.str s) (15 :: utf8Long s)
  | obj {kvs b} {l : List (Bytes × Val)} : l.Perm kvs → DenotesF l b → Denotes0 (.obj kvs) (3 :: b)
  | ecma {kvs b} {l : List (Bytes × Val)} : l.Perm kvs → l.length < 2 ^ 32 → DenotesF l b → Denotes0 (.obj kvs) (8 :: (be32 (UInt32.ofNat l.length) ++ b))
  | typed {name kvs b} {l : List (Bytes × Val)} : l.Perm kvs → name.length < 65536 → DenotesF l b → Denotes0 (.typed name kvs) (16 :: (utf8 name ++ b))
  | null : Denotes0 .nil [5]
  | undefined : Denotes0 .nil [6]
  | unsupported : Denotes0 .nil [13]
  | ref (n : UInt16) : Denotes0 (.shared n.toNat) (7 :: be16 n)
  | arr {xs b} : xs.length < 2 ^ 32 → DenotesL0 xs b → Denotes0 (.arr xs) (10 :: (be32 (UInt32.ofNat xs.length) ++ b))
  /-- AMF0 has no byte arrays: an array of numbers. -/
  | bytes {b} {x : Bytes} : x.length < 2 ^ 32 → DenotesL0 (x.map fun a => .uint false a.toNat) b →
      Denotes0 (.bytes x) (10 :: (be32 (UInt32.ofNat x.length) ++ b))
  /-- Milliseconds since 1970 and a time zone that should be 0 (2.13). -/
  | date {sec f} : Spec.F64.IsInt f (sec * 1000) → Denotes0 (.time sec) (11 :: (be64 f ++ [0, 0]))
  | amf3 {v b} : Spec.Amf3.Denotes v b → Denotes0 v (17 :: b)
/-- Values one after the other. -/
inductive DenotesL0 : List Val → Bytes → Prop
  | nil : DenotesL0 [] []
  | cons {v vs b c} : Denotes0 v b → DenotesL0 vs c → DenotesL0 (v :: vs) (b ++ c)
/-- Members, ended by an empty name and the marker 9 (2.5). -/
inductive DenotesF : List (Bytes × Val) → Bytes → Prop
  | nil : DenotesF [] [0, 0, 9]
  | cons {k v r b c} : k ≠ [] → k.length < 65536 → Denotes0 v b → DenotesF r c → DenotesF ((k, v) :: r) (utf8 k ++ (b ++ c))
end

mutual
/-- Integers have at most 64 bits. -/
def Fits64 : Val → Prop
  | .int _ i => i.natAbs < 2 ^ 64
  | .uint _ n => n < 2 ^ 64
  | .arr xs => Fits64L xs
  | .obj kvs => Fits64F kvs
  | .typed _ kvs => Fits64F kvs
  | _ => True
def Fits64L : List Val → Prop
  | [] => True
  | v :: vs => Fits64 v ∧ Fits64L vs
def Fits64F : List (Bytes × Val) → Prop
  | [] => True
  | (_, v) :: r => Fits64 v ∧ Fits64F r
end

end Verif.Spec.Amf0
