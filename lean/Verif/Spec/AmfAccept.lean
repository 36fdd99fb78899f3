import Verif.Spec.Amf3Peer
import Verif.Spec.Amf0
import Verif.Spec.Float64
/-!
# Which byte strings are AMF, and what they denote

`Read strict t b v t'`: when `t` has been sent before, the bytes `b` are one AMF3 value that denotes `v`, and `t'` has been sent
then.  `Read0` is the same for AMF0.  Section numbers are those of the two specifications.  Unlike in `Spec/Amf3Peer.lean`
numbers may have more bytes than they need.

With `strict = false` also the following are accepted, which the decoder accepts although it should not, or to which it gives
another meaning than the specification:
* AMF3: integers with the sign bit (C97), dates before 1970 with milliseconds and dates that are not whole milliseconds (C140), XML documents and byte arrays that are cut off, with zeros for what is missing (C36), empty
  ones, which get no number (C35), references to arrays and objects, and object references to something else (C35), and dynamic and externalizable objects without
  their further data (C33);
* AMF0: booleans other than 0 and 1 (C98), references to strict arrays and after typed objects (C25).
-/
namespace Verif.Spec.Amf3
open Verif.Amf

/-- The bytes are a U29 with this value (1.3.1): seven bits in every byte, the high bit says that another one follows; a fourth
byte has eight bits. -/
inductive IsU29 : Bytes → Nat → Prop
  | one (a : UInt8) : a.toNat < 128 → IsU29 [a] a.toNat
  | two (a b : UInt8) : 128 ≤ a.toNat → b.toNat < 128 → IsU29 [a, b] ((a.toNat - 128) * 128 + b.toNat)
  | three (a b c : UInt8) : 128 ≤ a.toNat → 128 ≤ b.toNat → c.toNat < 128 →
      IsU29 [a, b, c] (((a.toNat - 128) * 128 + (b.toNat - 128)) * 128 + c.toNat)
  | four (a b c d : UInt8) : 128 ≤ a.toNat → 128 ≤ b.toNat → 128 ≤ c.toNat →
      IsU29 [a, b, c, d] ((((a.toNat - 128) * 128 + (b.toNat - 128)) * 128 + (c.toNat - 128)) * 256 + d.toNat)

/-- What has been sent: the non-empty strings, the complex values (`none` for arrays and objects), and the classes, with their member
names and whether they are dynamic or externalizable. -/
structure Seen where
  strs : List Bytes
  vals : List (Option Val)
  classes : List (Bool × List Bytes)

def Seen.none : Seen := ⟨[], [], []⟩
def Seen.add (t : Seen) (v : Option Val) : Seen := { t with vals := t.vals ++ [v] }

/-- A string (1.3.2). -/
inductive ReadStr (t : Seen) : Bytes → Bytes → Seen → Prop
  | empty {u} : IsU29 u 1 → ReadStr t u [] t
  | full {u x} : IsU29 u (2 * x.length + 1) → x ≠ [] → ReadStr t (u ++ x) x { t with strs := t.strs ++ [x] }
  | ref {u i x} : IsU29 u (2 * i) → t.strs[i]? = some x → ReadStr t u x t

/-- The member names of a class. -/
inductive ReadNames : Seen → Bytes → List Bytes → Seen → Prop
  | nil {t} : ReadNames t [] [] t
  | cons {t b k t' c ks t''} : ReadStr t b k t' → ReadNames t' c ks t'' → ReadNames t (b ++ c) (k :: ks) t''

/-- The description of a class (3.12): whether it has one of the flags (4: externalizable, 8: dynamic), and its member names. -/
inductive ReadClass (t : Seen) : Bytes → Bool → List Bytes → Seen → Prop
  | ref {u i flags ks} : IsU29 u (4 * i + 1) → t.classes[i]? = some (flags, ks) → ReadClass t u flags ks t
  | new {u f b name t' c ks t''} : IsU29 u (16 * ks.length + 4 * f + 3) → f < 4 → ReadStr t b name t' → ReadNames t' c ks t'' →
      ReadClass t (u ++ (b ++ c)) (f != 0) ks { t'' with classes := t''.classes ++ [(f != 0, ks)] }

/-- The values of the markers 7 and 11 (XML) and 12 (byte array). -/
inductive Blob : UInt8 → Bytes → Val → Prop
  | xmlDoc (x : Bytes) : Blob 7 x (.str x)
  | xml (x : Bytes) : Blob 11 x (.str x)
  | bytes (x : Bytes) : Blob 12 x (.bytes x)

/-- What a number of milliseconds means in seconds, where the code is right (C140); for all dates that ECMAScript has, up to 100 million days
from 1970. -/
def Seconds (f : UInt64) (sec : Int) : Prop :=
  ∀ n, Spec.F64.IsInt f n → n.natAbs ≤ 8640000000000000 → 0 ≤ n ∨ n % 1000 = 0 → sec * 1000 ≤ n ∧ n < (sec + 1) * 1000

/-- A whole number of milliseconds from 1970 on, or of seconds. -/
def Plain (f : UInt64) : Prop := ∃ n, Spec.F64.IsInt f n ∧ n.natAbs ≤ 8640000000000000 ∧ (0 ≤ n ∨ n % 1000 = 0)

mutual
inductive Read (strict : Bool) : Seen → Bytes → Val → Seen → Prop
  | undefined {t} : Read strict t [0] .nil t
  | null {t} : Read strict t [1] .nil t
  | no {t} : Read strict t [2] (.bool false) t
  | yes {t} : Read strict t [3] (.bool true) t
  | int {t u n} : IsU29 u n → (strict = true → n < 2 ^ 28) → Read strict t (4 :: u) (.uint false n) t
  | double {t} (f : UInt64) : Read strict t (5 :: be64 f) (.f64 f) t
  | str {t b x t'} : ReadStr t b x t' → Read strict t (6 :: b) (.str x) t'
  | blob {t m u x v} : IsU29 u (2 * x.length + 1) → x ≠ [] → Blob m x v → Read strict t (m :: (u ++ x)) v (t.add (some v))
  | empty {t m u v} : strict = false → IsU29 u 1 → Blob m [] v → Read strict t (m :: u) v t
  | cut {t m u x n v} : strict = false → IsU29 u (2 * n + 1) → x ≠ [] → x.length < n → Blob m (x ++ List.replicate (n - x.length) 0) v →
      Read strict t (m :: (u ++ x)) v (t.add (some v))
  | date {t u k f sec} : IsU29 u (2 * k + 1) → Seconds f sec → (strict = true → Plain f) → Read strict t (8 :: (u ++ be64 f)) (.time sec) (t.add (some (.time sec)))
  | again {t m u i v} : IsU29 u (2 * i) → t.vals[i]? = some (some v) → KindOk m v = true → Read strict t (m :: u) v t
  | lost {t m u i v} : strict = false → m = 9 ∨ m = 10 → IsU29 u (2 * i) → t.vals[i]? = some none →
      v = .ecma [] [] ∨ m = 10 ∧ v = .nil → Read strict t (m :: u) v t
  | stray {t u i v} : strict = false → IsU29 u (2 * i) → t.vals[i]? = some (some v) → Read strict t (10 :: u) v t
  | arr {t u b named t' c xs t''} : IsU29 u (2 * xs.length + 1) → ReadMembers strict (t.add none) b named t' → ReadAll strict t' c xs t'' →
      Read strict t (9 :: (u ++ (b ++ c))) (.ecma xs (lastWins named)) t''
  | obj {t b flags ks t' c vs t''} : ReadClass t b flags ks t' → (strict = true → flags = false) →
      ReadAll strict (t'.add none) c vs t'' → vs.length = ks.length → Read strict t (10 :: (b ++ c)) (.obj (lastWins (ks.zip vs))) t''
/-- Values one after the other. -/
inductive ReadAll (strict : Bool) : Seen → Bytes → List Val → Seen → Prop
  | nil {t} : ReadAll strict t [] [] t
  | cons {t b v t' c vs t''} : Read strict t b v t' → ReadAll strict t' c vs t'' → ReadAll strict t (b ++ c) (v :: vs) t''
/-- Named members, ended by the empty name (1.3.2, 3.11). -/
inductive ReadMembers (strict : Bool) : Seen → Bytes → List (Bytes × Val) → Seen → Prop
  | done {t b t'} : ReadStr t b [] t' → ReadMembers strict t b [] t'
  | more {t b k t1 c v t2 d l t3} : ReadStr t b k t1 → k ≠ [] → Read strict t1 c v t2 → ReadMembers strict t2 d l t3 →
      ReadMembers strict t (b ++ (c ++ d)) ((k, v) :: l) t3
end

end Verif.Spec.Amf3

namespace Verif.Spec.Amf0
open Verif.Amf
open Verif.Spec.Amf3 (Seen Read lastWins)

/-- What has been sent: in AMF3, the complex values in AMF0 (true for objects and ECMA arrays), and the number of typed objects. -/
structure Seen0 where
  amf3 : Seen
  complex : List Bool
  typed : Nat

def Seen0.none : Seen0 := ⟨Seen.none, [], 0⟩
def Seen0.add (t : Seen0) (obj : Bool) : Seen0 := { t with complex := t.complex ++ [obj] }

mutual
inductive Read0 (strict : Bool) : Seen0 → Bytes → Val → Seen0 → Prop
  | number {t} (f : UInt64) : Read0 strict t (0 :: be64 f) (.f64 f) t
  | bool {t} (b : UInt8) : (strict = true → b = 0 ∨ b = 1) → Read0 strict t [1, b] (.bool (b == 1)) t
  | str {t s} : s.length < 65536 → Read0 strict t (2 :: utf8 s) (.str s) t
  | obj {t b l t'} : ReadFields strict (t.add true) b l t' → Read0 strict t (3 :: b) (.obj (lastWins l)) t'
  | null {t} : Read0 strict t [5] .nil t
  | undefined {t} : Read0 strict t [6] .nil t
  | ref {t} {n : UInt16} : t.typed = 0 → t.complex[n.toNat]? = some true → Read0 strict t (7 :: be16 n) (.shared n.toNat) t
  | wrong {t} {n : UInt16} : strict = false → t.typed = 0 → t.complex[n.toNat]? = some false → Read0 strict t (7 :: be16 n) (.arr []) t
  | shifted {t v} {n : UInt16} : strict = false → t.typed ≠ 0 → n.toNat < t.complex.length + t.typed →
      v = .shared n.toNat ∨ v = .arr [] ∨ v = .typed [] [] → Read0 strict t (7 :: be16 n) v t
  | ecma {t b l t'} (count : UInt32) : ReadFields strict (t.add true) b l t' → Read0 strict t (8 :: (be32 count ++ b)) (.obj (lastWins l)) t'
  | strictArr {t b xs t'} : xs.length < 2 ^ 32 → ReadAll0 strict (t.add false) b xs t' →
      Read0 strict t (10 :: (be32 (UInt32.ofNat xs.length) ++ b)) (.arr xs) t'
  | date {t} (f : UInt64) (zone : UInt16) : Read0 strict t (11 :: (be64 f ++ be16 zone)) (.f64 f) t
  | longStr {t s} : s.length < 2 ^ 32 → Read0 strict t (12 :: utf8Long s) (.str s) t
  | unsupported {t} : Read0 strict t [13] .nil t
  | xml {t s} : s.length < 2 ^ 32 → Read0 strict t (15 :: utf8Long s) (.str s) t
  | typed {t name b l t'} : name.length < 65536 → ReadFields strict { t.add true with typed := t.typed + 1 } b l t' →
      Read0 strict t (16 :: (utf8 name ++ b)) (.typed name (lastWins l)) t'
  | amf3 {t b v u} : Read strict t.amf3 b v u → Read0 strict t (17 :: b) v { t with amf3 := u }
/-- Values one after the other. -/
inductive ReadAll0 (strict : Bool) : Seen0 → Bytes → List Val → Seen0 → Prop
  | nil {t} : ReadAll0 strict t [] [] t
  | cons {t b v t' c vs t''} : Read0 strict t b v t' → ReadAll0 strict t' c vs t'' → ReadAll0 strict t (b ++ c) (v :: vs) t''
/-- Members, ended by an empty name and the marker 9 (2.5, 2.11). -/
inductive ReadFields (strict : Bool) : Seen0 → Bytes → List (Bytes × Val) → Seen0 → Prop
  | done {t} : ReadFields strict t [0, 0, 9] [] t
  | more {t k c v t' d l t''} : k ≠ [] → k.length < 65536 → Read0 strict t c v t' → ReadFields strict t' d l t'' →
      ReadFields strict t (utf8 k ++ (c ++ d)) ((k, v) :: l) t''
end

end Verif.Spec.Amf0
