import Verif.Spec.Utf8
/-!
# Specification vocabulary for package `sips`

Character classes and text shapes of RFC 3261 that the properties quantify over.  Nothing here refers to the model.
-/
namespace Verif.Spec.Sips
open Verif.Spec

/-- A printable ASCII character (space to tilde). -/
def Printable (b : UInt8) : Prop := 0x20 ≤ b ∧ b ≤ 0x7e

/-- Text that can stand as an argument value: UTF-8 of characters other than line feed, `"`, `,` and `;`, and no white space
at either end. -/
def ArgText (s : Bytes) : Prop := ∃ cs : List Char, s = utf8 cs ∧ (∀ c ∈ cs, c ≠ '\n' ∧ c ≠ '"' ∧ c ≠ ',' ∧ c ≠ ';') ∧
  (∀ c, cs.head? = some c → ¬ White c) ∧ ∀ c, cs.getLast? = some c → ¬ White c

/-- Text that can stand as an argument name: not empty and without `=` (0x3d). -/
structure ArgKey (s : Bytes) : Prop where
  toArgText : ArgText s
  nonempty : s ≠ []
  noEq : (0x3d : UInt8) ∉ s

/-- An argument map: distinct names, every entry well formed.  The order of the list is the order in which Go happens to
visit the map. -/
structure ArgMap (a : List (Bytes × Bytes)) : Prop where
  distinct : (a.map Prod.fst).Nodup
  keys : ∀ e ∈ a, ArgKey e.1
  values : ∀ e ∈ a, ArgText e.2

/-- A printable character that is neither a space nor one of `"` (0x22), `,` (0x2c), `;` (0x3b), `\\` (0x5c). -/
def Plain (c : UInt8) : Prop := 0x21 ≤ c ∧ c ≤ 0x7e ∧ c ≠ 0x22 ∧ c ≠ 0x2c ∧ c ≠ 0x3b ∧ c ≠ 0x5c

/-- The text starts with a value: a plain character, perhaps after an opening quote. -/
def StartsValue (r : Bytes) : Prop := (∃ c t, r = c :: t ∧ Plain c) ∨ ∃ c t, r = 0x22 :: c :: t ∧ Plain c

/-- Every `=` (0x3d) of the text is directly followed by a value. -/
def ValuesPresent (s : Bytes) : Prop := ∀ x r, s = x ++ 0x3d :: r → StartsValue r

/-- An argument `name=` without a value, or with a lone quote as its value. -/
def NoValue (p : Bytes) : Prop := ∃ k v, p = k ++ 0x3d :: v ∧ (0x3d : UInt8) ∉ k ∧ (v = [] ∨ v = [0x22])

/-- A line that continues the one before: it begins with a tab or a space (perhaps after stray carriage returns). -/
def Folded (l : Bytes) : Prop := ∃ cs c t, l = cs ++ c :: t ∧ (∀ b ∈ cs, b = 13) ∧ (c = 9 ∨ c = 0x20)

/-- Every continuation line has a header line, with a colon, somewhere before it. -/
def FoldsOk : List Bytes → Prop
  | [] => True
  | l :: ls => ¬ Folded l ∧ ((0x3a : UInt8) ∈ l ∨ FoldsOk ls)

/-- A header name as the package stores it: visible ASCII characters without colon and upper case letters. -/
structure HeaderName (k : Bytes) : Prop where
  nonempty : k ≠ []
  chars : ∀ b ∈ k, 0x21 ≤ b ∧ b ≤ 0x7e ∧ b ≠ 0x3a ∧ ¬ (0x41 ≤ b ∧ b ≤ 0x5a)

/-- A header value on one line: no CR, no LF, no space at either end; other bytes are free. -/
structure HeaderValue (v : Bytes) : Prop where
  chars : ∀ b ∈ v, b ≠ 13 ∧ b ≠ 10
  first : v.head? ≠ some 0x20
  last : v.getLast? ≠ some 0x20

/-- Lines terminated by LF. -/
def lines (ls : List Bytes) : Bytes := (ls.map fun l => l ++ [10]).flatten

/-- A line (without its LF) that is not blank and fits a buffer of `n` bytes with its LF. -/
structure HeadLine (n : Nat) (l : Bytes) : Prop where
  noLf : (10 : UInt8) ∉ l
  notBlank : ∃ b ∈ l, b ≠ 13
  short : l.length < n

/-- `b` is in none of the positions of `s`. -/
def Without (b : UInt8) (s : Bytes) : Prop := b ∉ s

/-- Equal up to the case of ASCII letters. -/
def lowerAscii (b : UInt8) : UInt8 := if 0x41 ≤ b ∧ b ≤ 0x5a then b + 0x20 else b

/-- Two ASCII strings that differ in letter case only. -/
def SameText (s t : Bytes) : Prop := s.map lowerAscii = t.map lowerAscii

/-- The methods of RFC 3261 and its extensions, with the numbers the package gives them. -/
def methods : List (UInt16 × String) := [(1, "INVITE"), (2, "ACK"), (3, "BYE"), (4, "CANCEL"), (5, "OPTIONS"),
  (6, "REGISTER"), (7, "PRACK"), (8, "SUBSCRIBE"), (9, "NOTIFY"), (10, "PUBLISH"), (11, "INFO"), (12, "REFER"),
  (13, "MESSAGE"), (14, "UPDATE"), (15, "PING")]

/-- The compact header names of RFC 3261 and its extensions, each after its long form. -/
def compact : List (String × String) := [("accept-contact", "a"), ("allow-events", "u"), ("call-id", "i"), ("contact", "m"),
  ("content-encoding", "e"), ("content-length", "l"), ("content-type", "c"), ("event", "o"), ("from", "f"), ("identity", "y"),
  ("refer-to", "r"), ("referred-by", "b"), ("reject-contact", "j"), ("request-disposition", "d"), ("session-expires", "x"),
  ("subject", "s"), ("supported", "k"), ("to", "t"), ("via", "v")]

/-- The protocol versions. -/
def versions : List (UInt8 × String) := [(1, "SIP/1.0"), (2, "SIP/2.0")]

/-- The bytes of a text. -/
def text (s : String) : Bytes := s.toUTF8.toList

/-- The value of a string of decimal digits, most significant first. -/
def decVal (s : Bytes) : Nat := s.foldl (fun a b => a * 10 + (b.toNat - 48)) 0

/-- A string of decimal digits without superfluous leading zeros. -/
def IsDecimal (s : Bytes) (n : Nat) : Prop :=
  s ≠ [] ∧ (∀ b ∈ s, 48 ≤ b ∧ b ≤ 57) ∧ (s.head? = some 48 → s = [48]) ∧ decVal s = n

end Verif.Spec.Sips
