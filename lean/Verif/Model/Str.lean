import Verif.Model.Go
/-!
# Go's string functions as used by package `sips`

This file models no function of `/repo`; it models the standard library functions the `sips` package calls
(`strings`, `bytes`, `strconv`, `unicode/utf8`) on strings given as lists of bytes.
-/
namespace Verif

/-- `b!"text"`: the bytes of a string literal as an explicit list. -/
syntax:max "b!" str : term
macro_rules
  | `(b! $s) => do
    let elems ← s.getString.toUTF8.toList.mapM fun b => `(($(Lean.quote b.toNat) : UInt8))
    `([$(elems.toArray),*])

/-- `c!"x"`: the byte of a one-character string literal. -/
syntax:max "c!" str : term
macro_rules
  | `(c! $s) => do
    let b := s.getString.toUTF8.toList.headD 0
    `(($(Lean.quote b.toNat) : UInt8))

namespace Str

/-! ## unicode/utf8 -/

/-- A continuation byte in the given range. -/
def inRange (b lo hi : UInt8) : Bool := lo ≤ b && b ≤ hi

/-- The range of the second byte after the first byte `b0`, and the number of bytes of the sequence
(`utf8.first`, `utf8.acceptRanges`); `none` if `b0` cannot start a sequence. -/
def leadInfo (b0 : UInt8) : Option (Nat × UInt8 × UInt8) :=
  if inRange b0 0xC2 0xDF then some (2, 0x80, 0xBF)
  else if b0 = 0xE0 then some (3, 0xA0, 0xBF)
  else if b0 = 0xED then some (3, 0x80, 0x9F)
  else if inRange b0 0xE1 0xEF then some (3, 0x80, 0xBF)
  else if b0 = 0xF0 then some (4, 0x90, 0xBF)
  else if inRange b0 0xF1 0xF3 then some (4, 0x80, 0xBF)
  else if b0 = 0xF4 then some (4, 0x80, 0x8F)
  else none

/-- `utf8.RuneError`. -/
def runeError : Nat := 0xFFFD

/-- `utf8.DecodeRuneInString`: the rune and its width. -/
def decodeRune : Bytes → Nat × Nat
  | [] => (runeError, 0)
  | b0 :: r =>
    if b0 < 0x80 then (b0.toNat, 1)
    else match leadInfo b0, r with
      | some (2, lo, hi), b1 :: _ =>
        if inRange b1 lo hi then ((b0.toNat % 32) * 64 + b1.toNat % 64, 2) else (runeError, 1)
      | some (3, lo, hi), b1 :: b2 :: _ =>
        if inRange b1 lo hi && inRange b2 0x80 0xBF then
          ((b0.toNat % 16) * 4096 + (b1.toNat % 64) * 64 + b2.toNat % 64, 3)
        else (runeError, 1)
      | some (4, lo, hi), b1 :: b2 :: b3 :: _ =>
        if inRange b1 lo hi && inRange b2 0x80 0xBF && inRange b3 0x80 0xBF then
          ((b0.toNat % 8) * 262144 + (b1.toNat % 64) * 4096 + (b2.toNat % 64) * 64 + b3.toNat % 64, 4)
        else (runeError, 1)
      | _, _ => (runeError, 1)

/-- `for _, r := range s` with at most `fuel` iterations. -/
def runesAux : Nat → Bytes → List Nat
  | 0, _ => []
  | _, [] => []
  | fuel + 1, b :: s =>
    let (r, n) := decodeRune (b :: s)
    r :: runesAux fuel ((b :: s).drop n)

/-- `for _, r := range s`: the runes of a string; every iteration consumes a byte. -/
def runes (s : Bytes) : List Nat := runesAux s.length s

/-- `utf8.EncodeRune` (as used by `bytes.Buffer.WriteRune`). -/
def encodeRune (r : Nat) : Bytes :=
  let r := if r > 0x10FFFF ∨ (0xD800 ≤ r ∧ r ≤ 0xDFFF) then runeError else r
  if r < 0x80 then [UInt8.ofNat r]
  else if r < 0x800 then [UInt8.ofNat (0xC0 + r / 64), UInt8.ofNat (0x80 + r % 64)]
  else if r < 0x10000 then
    [UInt8.ofNat (0xE0 + r / 4096), UInt8.ofNat (0x80 + r / 64 % 64), UInt8.ofNat (0x80 + r % 64)]
  else [UInt8.ofNat (0xF0 + r / 262144), UInt8.ofNat (0x80 + r / 4096 % 64), UInt8.ofNat (0x80 + r / 64 % 64),
    UInt8.ofNat (0x80 + r % 64)]

/-- `utf8.RuneStart`. -/
def runeStart (b : UInt8) : Bool := b &&& 0xC0 != 0x80

/-- The start of the last sequence: `utf8.DecodeLastRune` walks back over at most three further bytes. -/
def lastStart (s : Bytes) : Nat :=
  let e := s.length
  let isStart (k : Nat) : Bool := (s[k]?.map runeStart).getD false
  if e ≥ 2 && isStart (e - 2) then e - 2
  else if e ≥ 3 && isStart (e - 3) then e - 3
  else if e ≥ 4 && isStart (e - 4) then e - 4
  else e - 5

/-- `utf8.DecodeLastRuneInString`: the rune and its width. -/
def decodeLastRune (s : Bytes) : Nat × Nat :=
  match s.getLast? with
  | none => (runeError, 0)
  | some b =>
    if b < 0x80 then (b.toNat, 1)
    else
      let (r, n) := decodeRune (s.drop (lastStart s))
      if lastStart s + n ≠ s.length then (runeError, 1) else (r, n)

/-- `unicode.IsSpace`. -/
def isSpace (r : Nat) : Bool :=
  (9 ≤ r && r ≤ 13) || r == 32 || r == 0x85 || r == 0xA0 || r == 0x1680 || (0x2000 ≤ r && r ≤ 0x200a) ||
  r == 0x2028 || r == 0x2029 || r == 0x202f || r == 0x205f || r == 0x3000

/-! ## strings and bytes -/

/-- `strings.TrimLeftFunc(s, unicode.IsSpace)`. -/
def trimLeftAux : Nat → Bytes → Bytes
  | 0, s => s
  | _, [] => []
  | fuel + 1, b :: s =>
    let (r, n) := decodeRune (b :: s)
    if isSpace r then trimLeftAux fuel ((b :: s).drop n) else b :: s

/-- `strings.TrimRightFunc(s, unicode.IsSpace)`. -/
def trimRightAux : Nat → Bytes → Bytes
  | 0, s => s
  | _, [] => []
  | fuel + 1, s =>
    let (r, n) := decodeLastRune s
    if isSpace r then trimRightAux fuel (s.take (s.length - n)) else s

/-- `strings.TrimSpace` and `bytes.TrimSpace` (the ASCII fast paths of the library give the same result). -/
def trimSpace (s : Bytes) : Bytes :=
  let t := trimLeftAux s.length s
  trimRightAux t.length t

/-- `bytes.Trim(s, cutset)` for a cutset of ASCII characters. -/
def trim (cut : UInt8 → Bool) (s : Bytes) : Bytes :=
  ((s.dropWhile cut).reverse.dropWhile cut).reverse

/-- `strings.Index(s, c)` and `bytes.Index` for a single character: the position of the first `c`, or -1. -/
def index (c : UInt8) : Bytes → Int
  | [] => -1
  | b :: s => if b = c then 0 else if index c s < 0 then -1 else index c s + 1

/-- Upper case of an ASCII letter. -/
def upperByte (b : UInt8) : UInt8 := if 0x61 ≤ b ∧ b ≤ 0x7a then b - 32 else b
/-- Lower case of an ASCII letter. -/
def lowerByte (b : UInt8) : UInt8 := if 0x41 ≤ b ∧ b ≤ 0x5a then b + 32 else b
/-- Only ASCII bytes. -/
def isAscii (s : Bytes) : Bool := s.all (· < 0x80)

/-- The parts of the standard library that depend on Unicode tables, for strings that are not ASCII.  They are
arbitrary functions; every theorem holds for all of them. -/
structure Unicode where
  lower : Bytes → Bytes
  upper : Bytes → Bytes
  quote : Bytes → Bytes

/-- `strings.ToLower`. -/
def toLower (U : Unicode) (s : Bytes) : Bytes := if isAscii s then s.map lowerByte else U.lower s
/-- `strings.ToUpper`. -/
def toUpper (U : Unicode) (s : Bytes) : Bytes := if isAscii s then s.map upperByte else U.upper s

/-- `strings.SplitN(s, sep, n + 1)` for a one-character separator: at most `n` cuts. -/
def splitN (sep : UInt8) : Nat → Bytes → List Bytes
  | 0, s => [s]
  | n + 1, s =>
    if index sep s < 0 then [s]
    else s.take (index sep s).toNat :: splitN sep n (s.drop ((index sep s).toNat + 1))

/-- `strings.HasPrefix`. -/
def hasPrefix (s p : Bytes) : Bool := s.take p.length == p

/-! ## strconv -/

/-- Decimal digits, most significant first, with fuel. -/
def digitsAux : Nat → Nat → Bytes
  | 0, _ => []
  | fuel + 1, n => if n < 10 then [UInt8.ofNat (48 + n)] else digitsAux fuel (n / 10) ++ [UInt8.ofNat (48 + n % 10)]

/-- `strconv.Itoa`. -/
def itoa (i : Int) : Bytes :=
  if i < 0 then c!"-" :: digitsAux (i.natAbs + 1) i.natAbs else digitsAux (i.natAbs + 1) i.natAbs

/-- The value of a non-empty string of decimal digits. -/
def decimal : Bytes → Nat → Option Nat
  | [], acc => some acc
  | b :: s, acc => if 48 ≤ b ∧ b ≤ 57 then decimal s (acc * 10 + (b.toNat - 48)) else none

/-- `strconv.Atoi` (64-bit `int`): an optional sign, digits, no underscore; out of range is an error. -/
def atoi (s : Bytes) : Res Int :=
  let neg := s.head? = some c!"-"
  let d := if s.head? = some c!"-" ∨ s.head? = some c!"+" then s.drop 1 else s
  if d = [] then .err .other
  else match decimal d 0 with
    | none => .err .other
    | some n =>
      if neg then (if n ≤ 2 ^ 63 then .ok (-(n : Int)) else .err .other)
      else (if n < 2 ^ 63 then .ok n else .err .other)

/-- A hexadecimal digit. -/
def hexDigit (n : Nat) : UInt8 := if n < 10 then UInt8.ofNat (48 + n) else UInt8.ofNat (87 + n)

/-- What `strconv.Quote` writes for one ASCII character. -/
def quoteByte (b : UInt8) : Bytes :=
  if b = c!"\"" ∨ b = c!"\\" then [c!"\\", b]
  else if 0x20 ≤ b ∧ b < 0x7f then [b]
  else if b = 7 then b!"\\a" else if b = 8 then b!"\\b" else if b = 12 then b!"\\f"
  else if b = 10 then b!"\\n" else if b = 13 then b!"\\r" else if b = 9 then b!"\\t"
  else if b = 11 then b!"\\v"
  else b!"\\x" ++ [hexDigit (b.toNat / 16), hexDigit (b.toNat % 16)]

/-- `strconv.Quote`. -/
def quote (U : Unicode) (s : Bytes) : Bytes :=
  if isAscii s then [c!"\""] ++ (s.map quoteByte).flatten ++ [c!"\""] else U.quote s

end Str
end Verif
