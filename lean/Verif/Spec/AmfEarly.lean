import Verif.Spec.AmfAccept
/-!
# References to a value that has not been sent

`Early strict t data`: the value at the beginning of `data` contains, at any depth and after whatever complete values, an AMF0
reference with the index that the next complex value would have.  `t` is what has been sent before (`Spec/AmfAccept.lean`; a typed
object counts twice, as in the code, C25).  Whatever follows that reference is irrelevant.
-/
namespace Verif.Spec.Amf0
open Verif.Amf

mutual
inductive Early (strict : Bool) : Seen0 → Bytes → Prop
  | ref {t rest} {n : UInt16} : n.toNat = t.complex.length + t.typed → Early strict t (7 :: (be16 n ++ rest))
  | obj {t b} : EarlyFields strict (t.add true) b → Early strict t (3 :: b)
  | ecma {t b} (count : UInt32) : EarlyFields strict (t.add true) b → Early strict t (8 :: (be32 count ++ b))
  | strictArr {t b} {n : UInt32} : EarlyAll strict n.toNat (t.add false) b → Early strict t (10 :: (be32 n ++ b))
  | typed {t name b} : name.length < 65536 → EarlyFields strict { t.add true with typed := t.typed + 1 } b →
      Early strict t (16 :: (utf8 name ++ b))
/-- Among the first `n` values. -/
inductive EarlyAll (strict : Bool) : Nat → Seen0 → Bytes → Prop
  | here {t b n} : Early strict t b → EarlyAll strict (n + 1) t b
  | later {t c v t' d n} : Read0 strict t c v t' → EarlyAll strict n t' d → EarlyAll strict (n + 1) t (c ++ d)
/-- In a member of an object. -/
inductive EarlyFields (strict : Bool) : Seen0 → Bytes → Prop
  | here {t k c} : k ≠ [] → k.length < 65536 → Early strict t c → EarlyFields strict t (utf8 k ++ c)
  | later {t k c v t' d} : k ≠ [] → k.length < 65536 → Read0 strict t c v t' → EarlyFields strict t' d →
      EarlyFields strict t (utf8 k ++ (c ++ d))
end

end Verif.Spec.Amf0
