import Verif.Model.Go
/-!
# IEEE-754 binary64 as bit patterns

Go's `float64` arithmetic that `/repo` performs: `float64(int)` (amf0.go:327,329; amf3.go:574,580,584,586),
multiplication by `1000.0` (amf0.go:609, amf3.go:715), division by `1000` and `int64(float64)` (amf3.go:202).
A `float64` is its 64-bit pattern; every operation is the exact rational result rounded to nearest, ties to even.
-/
namespace Verif.F64

/-- `num/den` rounded to the nearest natural number, ties to even. -/
def rne (num den : Nat) : Nat :=
  let q := num / den
  let r := num % den
  if 2 * r > den ∨ (2 * r = den ∧ q % 2 = 1) then q + 1 else q

/-- `⌊log2 (num/den)⌋` for positive `num`, `den`. -/
def floorLog2 (num den : Nat) : Int :=
  let a : Int := (num.log2 : Int) - (den.log2 : Int)
  let ge : Bool := if 0 ≤ a then den * 2 ^ a.toNat ≤ num else den ≤ num * 2 ^ (-a).toNat
  if ge then a else a - 1

/-- The float64 nearest to `(-1)^neg * num/den`. -/
def ofRatio (neg : Bool) (num den : Nat) : UInt64 :=
  let sign := if neg then 2 ^ 63 else 0
  if num = 0 then UInt64.ofNat sign
  else
    let e := max (floorLog2 num den - 52) (-1074)
    let q := if 0 ≤ e then rne num (den * 2 ^ e.toNat) else rne (num * 2 ^ (-e).toNat) den
    UInt64.ofNat (min ((e + 1074).toNat * 2 ^ 52 + q) (2047 * 2 ^ 52) + sign)

/-- `float64(i)` for an integer. -/
def ofInt (i : Int) : UInt64 := ofRatio (i < 0) i.natAbs 1

/-- Sign, significand and exponent of a finite pattern: the value is `(-1)^s * m * 2^e`. -/
def parts (b : UInt64) : Bool × Nat × Int :=
  let x : Nat := b.toNat % 2 ^ 63
  let ex : Nat := x / 2 ^ 52
  let fr := x % 2 ^ 52
  (2 ^ 63 ≤ b.toNat, if ex = 0 then fr else fr + 2 ^ 52, if ex = 0 then -1074 else (ex : Int) - 1075)

/-- Neither infinity nor NaN. -/
def finite (b : UInt64) : Bool := b.toNat % 2 ^ 63 / 2 ^ 52 ≠ 2047

/-- `f * 1000.0` for finite `f`.  For infinities and NaN (which cannot arise from `float64(val.Unix())`)
the operand is returned. -/
def mul1000 (f : UInt64) : UInt64 :=
  if finite f then
    let (s, m, e) := parts f
    if 0 ≤ e then ofRatio s (m * 1000 * 2 ^ e.toNat) 1 else ofRatio s (m * 1000) (2 ^ (-e).toNat)
  else f

/-- `f / 1000` for finite `f`; infinities and NaN are returned unchanged. -/
def div1000 (f : UInt64) : UInt64 :=
  if finite f then
    let (s, m, e) := parts f
    if 0 ≤ e then ofRatio s (m * 2 ^ e.toNat) 1000 else ofRatio s m (1000 * 2 ^ (-e).toNat)
  else f

/-- `int64(f)`: truncation toward zero.  Out-of-range values and NaN are implementation-specific in Go;
modelled as on amd64, where the result is -2^63. -/
def toInt64 (f : UInt64) : Int :=
  if finite f then
    let (s, m, e) := parts f
    let n : Nat := if 0 ≤ e then m * 2 ^ e.toNat else m / 2 ^ (-e).toNat
    let i : Int := if s then -(n : Int) else n
    if -(2 ^ 63) ≤ i ∧ i < 2 ^ 63 then i else -(2 ^ 63)
  else -(2 ^ 63)

end Verif.F64
