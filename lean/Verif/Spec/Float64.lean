import Verif.Model.Go
/-!
# Meaning of an IEEE-754 binary64 bit pattern

Sign bit 63, exponent field bits 52-62, fraction bits 0-51.
-/
namespace Verif.Spec.F64

/-- Exponent field. -/
def expo (b : UInt64) : Nat := b.toNat / 2 ^ 52 % 2 ^ 11
/-- Fraction field. -/
def frac (b : UInt64) : Nat := b.toNat % 2 ^ 52
/-- Sign bit. -/
def neg (b : UInt64) : Bool := 2 ^ 63 ≤ b.toNat

/-- Magnitude of the value of a finite pattern, in units of 2^-1074 (the smallest subnormal). -/
def mag (b : UInt64) : Nat := if expo b = 0 then frac b else (2 ^ 52 + frac b) * 2 ^ (expo b - 1)

/-- The pattern is finite and its numerical value is the integer `i`. -/
def IsInt (b : UInt64) (i : Int) : Prop :=
  expo b ≠ 2047 ∧ (if neg b then -(mag b : Int) else (mag b : Int)) = i * 2 ^ 1074

/-- The value of a finite pattern, in units of 2^-1074. -/
def value (b : UInt64) : Int := if neg b then -(mag b : Int) else mag b

/-- How far the value of the pattern is from `num/den`, in units of 2^-1074/den. -/
def off (b : UInt64) (num : Int) (den : Nat) : Nat := (value b * den - num * 2 ^ 1074).natAbs

/-- The pattern is the finite one nearest to `num/den`; of two that are equally near, it is the one with the even
fraction (IEEE 754, roundTiesToEven). -/
structure Nearest (b : UInt64) (num : Int) (den : Nat) : Prop where
  finite : expo b ≠ 2047
  near : ∀ b', expo b' ≠ 2047 → off b num den ≤ off b' num den
  even : ∀ b', expo b' ≠ 2047 → value b' ≠ value b → off b num den = off b' num den → frac b % 2 = 0

end Verif.Spec.F64
