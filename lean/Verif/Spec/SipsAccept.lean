import Verif.Spec.SipsConn
/-! # What a text has to be to pass for a SIP message

Independent of the model: how a header section is cut into lines, what a first line says, and what header lines say. -/
namespace Verif.Spec.Sips

/-- `x` is `l` without the characters of one kind at both ends. -/
def Stripped (p : UInt8 → Prop) (l x : Bytes) : Prop := ∃ a b, l = a ++ x ++ b ∧ (∀ c ∈ a, p c) ∧ (∀ c ∈ b, p c) ∧
  (∀ c, x.head? = some c → ¬ p c) ∧ (∀ c, x.getLast? = some c → ¬ p c)

/-- White space of ASCII. -/
def Blank (c : UInt8) : Prop := c = 0x20 ∨ 9 ≤ c ∧ c ≤ 13

/-- A text of ASCII characters. -/
def Ascii (s : Bytes) : Prop := ∀ b ∈ s, b < 0x80

/-- The lines of a header section: none of them is empty, and each ends with LF, except the last one if the input ends with the section.
CRs at both ends of a line do not belong to it. -/
inductive Section (atEnd : Prop) : Bytes → List Bytes → Prop
  | nil : Section atEnd [] []
  | last {l x} : atEnd → (10 : UInt8) ∉ l → Stripped (· = 13) l x → x ≠ [] → Section atEnd l [x]
  | line {l x b ls} : (10 : UInt8) ∉ l → Stripped (· = 13) l x → x ≠ [] → Section atEnd b ls → Section atEnd (l ++ 10 :: b) (x :: ls)

/-- What a first line says. -/
inductive StartLine
  | request (method : UInt16) (uri : Bytes) (version : UInt8)
  | response (version : UInt8) (code : Int) (phrase : Bytes)

/-- An ASCII word is the name of the method, in any letter case. -/
def MethodWord (w : Bytes) (m : UInt16) : Prop := Ascii w → ∃ e ∈ methods, SameText w (text e.2) ∧ m = e.1

/-- An ASCII word is the name of the version, in any letter case. -/
def VersionWord (w : Bytes) (v : UInt8) : Prop := Ascii w → ∃ e ∈ versions, SameText w (text e.2) ∧ v = e.1

/-- How a first line says it: three parts separated by single spaces. -/
inductive Says : Bytes → StartLine → Prop
  | request {w0 w1 w2 m v} : (0x20 : UInt8) ∉ w0 → (0x20 : UInt8) ∉ w1 → MethodWord w0 m → VersionWord w2 v →
      Says (w0 ++ 0x20 :: (w1 ++ 0x20 :: w2)) (.request m w1 v)
  | response {w0 d p v i} : (0x20 : UInt8) ∉ w0 → w0.take 3 = text "SIP" → VersionWord w0 v → IsInteger d i → -2 ^ 63 ≤ i → i < 2 ^ 63 →
      Says (w0 ++ 0x20 :: (d ++ 0x20 :: p)) (.response v i p)

/-- The line begins with a space or a tabulator: it belongs to the field before it. -/
def Indented (l : Bytes) : Prop := l.head? = some 0x20 ∨ l.head? = some 9

/-- What header lines say: fields, each with its key (the name in small letters) and its value.  A line without a colon says nothing. -/
inductive Heads : List Bytes → List (Bytes × Bytes) → Prop
  | nil : Heads [] []
  | field {ls fs n v k x} : Heads ls fs → ¬ Indented (n ++ 0x3a :: v) → (0x3a : UInt8) ∉ n →
      (Ascii n → ∃ m, Stripped (· = 0x20) n m ∧ k = m.map lowerAscii) → Stripped (· = 0x20) v x →
      Heads (ls ++ [n ++ 0x3a :: v]) (fs ++ [(k, x)])
  | fold {ls fs l k v x} : Heads ls (fs ++ [(k, v)]) → Indented l → (Ascii l → Stripped Blank l x) →
      Heads (ls ++ [l]) (fs ++ [(k, v ++ 0x20 :: x)])
  | junk {ls fs l} : Heads ls fs → ¬ Indented l → (0x3a : UInt8) ∉ l → Heads (ls ++ [l]) fs

/-- The values of the fields of a name, in their order. -/
def valuesOf (fs : List (Bytes × Bytes)) (n : Bytes) : List Bytes := (fs.filter fun f => f.1 == n.map lowerAscii).map Prod.snd

end Verif.Spec.Sips
