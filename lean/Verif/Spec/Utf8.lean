import Verif.Model.Go
/-!
# Specification vocabulary: Unicode text

The encoding is the one of Lean's own `String` type.  Nothing here refers to the model.
-/
namespace Verif.Spec

/-- The UTF-8 bytes of a list of characters. -/
def utf8 (cs : List Char) : Bytes := cs.flatMap String.utf8EncodeChar

/-- The characters with the Unicode property White_Space. -/
def white : List Nat := [9, 10, 11, 12, 13, 0x20, 0x85, 0xa0, 0x1680, 0x2000, 0x2001, 0x2002, 0x2003, 0x2004, 0x2005, 0x2006, 0x2007,
  0x2008, 0x2009, 0x200a, 0x2028, 0x2029, 0x202f, 0x205f, 0x3000]

/-- White space. -/
def White (c : Char) : Prop := c.toNat ∈ white

instance (c : Char) : Decidable (White c) := inferInstanceAs (Decidable (_ ∈ _))

end Verif.Spec
