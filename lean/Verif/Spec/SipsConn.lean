import Verif.Spec.SipsPeer
/-!
# SIP messages on a connection (RFC 3261, 7 and 18.3)

A message is a first line, header fields, a blank line and a body.  Nothing here refers to the model.
-/
namespace Verif.Spec.Sips

/-- The first line: a request with a method and a URI, or a response with a code, its digits and a phrase. -/
inductive Start
  | request (method : UInt16 × String) (uri : Bytes)
  | response (code : Nat) (digits phrase : Bytes)

def Start.line : Start → Bytes
  | .request e uri => text e.2 ++ 0x20 :: (uri ++ 0x20 :: text "SIP/2.0")
  | .response _ d p => text "SIP/2.0" ++ 0x20 :: (d ++ 0x20 :: p)

/-- A known method and a URI without blanks and without empty arguments, or a decimal code and a phrase on one line; with its
CR and LF it fits a buffer of `size` bytes. -/
def Start.Fits (size : Nat) : Start → Prop
  | .request e uri => e ∈ methods ∧ (∀ b ∈ uri, b ≠ 0x20 ∧ b ≠ 13 ∧ b ≠ 10) ∧ ValuesPresent uri ∧
    (Start.request e uri).line.length + 1 < size
  | .response code d p => IsDecimal d code ∧ code < 2 ^ 63 ∧ (∀ b ∈ p, b ≠ 13 ∧ b ≠ 10) ∧
    (Start.response code d p).line.length + 1 < size

/-- A message. -/
structure Message where
  start : Start
  fields : List HField
  body : Bytes

/-- The header section, blank line included. -/
def Message.head (m : Message) : Bytes := lines ((m.start.line ++ lineEnd true) :: fieldLines m.fields) ++ [13, 10]

/-- The message as it is sent. -/
def Message.wire (m : Message) : Bytes := m.head ++ m.body

/-- The first content length is the number `n`. -/
def Declares (fs : List HField) (n : Nat) : Prop := ∃ d, (fieldValues fs (text "content-length")).head? = some d ∧ IsDecimal d n

/-- Digits, with or without a sign, and the number they stand for. -/
def IsInteger (s : Bytes) (i : Int) : Prop := ∃ d, d ≠ [] ∧ (∀ b ∈ d, 48 ≤ b ∧ b ≤ 57) ∧
  ((s = d ∧ i = decVal d) ∨ (s = 0x2b :: d ∧ i = decVal d) ∨ (s = 0x2d :: d ∧ i = -(decVal d : Int)))

/-- A blank line: the text begins with one, or there is one behind a line end. -/
def HasBlank (w : Bytes) : Prop := ∃ a cr b, w = a ++ cr ++ 10 :: b ∧ (∀ c ∈ cr, c = 13) ∧ (a = [] ∨ ∃ a', a = a' ++ [10])

end Verif.Spec.Sips
