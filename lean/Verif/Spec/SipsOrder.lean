import Verif.Model.SipsMsg
import Verif.Spec.SipsAccept
/-!
# Header fields in another order

The header fields of a message as blocks of lines, and their order; messages that say the same.
-/
namespace Verif.Spec.Sips

/-- A line without the CRs at its ends. -/
def bare (l : Bytes) : Bytes := ((l.dropWhile (· == 13)).reverse.dropWhile (· == 13)).reverse

/-- A header field as it was sent: the line with the name, and the lines up to the next field. -/
structure Block where
  name : Bytes
  head : Bytes
  more : List Bytes

/-- The lines of a field. -/
def Block.lines (b : Block) : List Bytes := b.head :: b.more

/-- The name stands before the first colon of a line that is not indented; the other lines are indented or have no colon. -/
structure Block.Ok (size : Nat) (b : Block) : Prop where
  fits : ∀ l ∈ b.lines, HeadLine size l
  colon : ∃ v, bare b.head = b.name ++ 0x3a :: v
  first : (0x3a : UInt8) ∉ b.name
  field : ¬ Indented (bare b.head)
  rest : ∀ l ∈ b.more, Indented (bare l) ∨ (0x3a : UInt8) ∉ bare l

/-- A name without the spaces at its ends, in small letters. -/
def key (n : Bytes) : Bytes := (((n.dropWhile (· == 0x20)).reverse.dropWhile (· == 0x20)).reverse).map lowerAscii

/-- Two fields of different names. -/
structure Differ (b c : Block) : Prop where
  left : Ascii b.name
  right : Ascii c.name
  names : key b.name ≠ key c.name

/-- The same fields in another order, in which fields of the same name keep their order. -/
inductive Reordered : List Block → List Block → Prop
  | refl (bs) : Reordered bs bs
  | swap (as cs : List Block) {b c} : Differ b c → Reordered (as ++ b :: c :: cs) (as ++ c :: b :: cs)
  | trans {as bs cs} : Reordered as bs → Reordered bs cs → Reordered as cs

/-- The lines of the fields. -/
def blockLines (bs : List Block) : List Bytes := (bs.map Block.lines).flatten

/-- Two messages that say the same: all that can be read from them is the same, except for the bytes of the header section and of the body. -/
structure Alike (s t : Verif.Sips.Sip) : Prop where
  rest : { s with headers := none, last := [], contents := [], payload := [] } = { t with headers := none, last := [], contents := [], payload := [] }
  some : s.headers.isSome = t.headers.isSome
  vals : ∀ k, Verif.Sips.mget s.hdr k = Verif.Sips.mget t.hdr k

end Verif.Spec.Sips
