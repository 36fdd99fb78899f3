import Verif.Spec.Sips
/-!
# Digest credentials (RFC 3261, 20.7 and 25.1; RFC 2617)

The text of an Authorization header is described by the choices of its sender: the letter case of the scheme, blanks after
the commas, and for every parameter a token or a quoted string in which any character may be written with a backslash.
Characters are those of Unicode, sent as UTF-8.
-/
namespace Verif.Spec.Sips

/-- A parameter value as sent. -/
inductive DVal where
  | token (t : Bytes)
  /-- the characters, each with the choice to write a backslash before it -/
  | quoted (cs : List (Bool × Char))

/-- A parameter as sent: blanks before it, name, value. -/
structure DParam where
  blanks : Bytes
  name : Bytes
  value : DVal

def DVal.wire : DVal → Bytes
  | .token t => t
  | .quoted cs => [0x22] ++ (cs.map fun c => if c.1 then 0x5c :: utf8 [c.2] else utf8 [c.2]).flatten ++ [0x22]

/-- The value meant. -/
def DVal.den : DVal → Bytes
  | .token t => t
  | .quoted cs => utf8 (cs.map Prod.snd)

/-- A token is not empty; a quote or backslash in a quoted string is written with a backslash. -/
def DVal.Fits : DVal → Prop
  | .token t => t ≠ [] ∧ ArgText t
  | .quoted cs => ∀ c ∈ cs, c.1 = false → c.2 ≠ '"' ∧ c.2 ≠ '\\'

def DParam.wire (p : DParam) : Bytes := p.blanks ++ p.name ++ 0x3d :: p.value.wire

structure DParam.Fits (p : DParam) : Prop where
  blanks : ∀ b ∈ p.blanks, b = 0x20 ∨ b = 9
  name : ArgKey p.name
  value : p.value.Fits

/-- Parameters separated by commas. -/
def dwire : List DParam → Bytes
  | [] => []
  | p :: ps => p.wire ++ (ps.map fun p => 0x2c :: p.wire).flatten

end Verif.Spec.Sips
