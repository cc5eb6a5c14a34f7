import Mathlib.Data.Int.Log
import Mathlib.Data.Rat.Floor
/-!
# Binary floating point numbers (IEEE 754)

The finite values of a format are rational numbers.  Infinities and NaN are one value `none`; the two zeros are not distinguished.
-/

namespace Vita.Spec

/-- A format: number of fraction bits, exponent of the least positive number, and the exponent `emax` with all numbers below `2 ^ emax`. -/
structure Fmt where
  frac : Nat
  emin : Int
  emax : Int
  deriving DecidableEq, Repr

/-- `float`. -/
def binary32 : Fmt := ⟨23, -149, 128⟩

/-- `double`. -/
def binary64 : Fmt := ⟨52, -1074, 1024⟩

/-- `x` is a number of the format, but for the upper limit of the exponent. -/
def IsFloat (f : Fmt) (x : ℚ) : Prop := ∃ m e : ℤ, |m| < 2 ^ (f.frac + 1) ∧ f.emin ≤ e ∧ x = m * 2 ^ e

/-- The nearest integer, ties to even. -/
def roundEven (x : ℚ) : ℤ :=
  if x - ⌊x⌋ < 1 / 2 then ⌊x⌋ else if 1 / 2 < x - ⌊x⌋ then ⌊x⌋ + 1 else if ⌊x⌋ % 2 = 0 then ⌊x⌋ else ⌊x⌋ + 1

/-- The distance of neighbouring numbers of the format around `x > 0`. -/
def quantum (f : Fmt) (x : ℚ) : ℚ := 2 ^ max (Int.log 2 x - f.frac) f.emin

/-- Rounding to nearest, ties to even, for `0 ≤ x`. -/
def rndPos (f : Fmt) (x : ℚ) : ℚ := roundEven (x / quantum f x) * quantum f x

/-- Rounding to nearest, ties to even. -/
def rnd (f : Fmt) (x : ℚ) : ℚ := if 0 ≤ x then rndPos f x else -rndPos f (-x)

/-- The result of an operation whose exact value is `x`. -/
def fl (f : Fmt) (x : ℚ) : Option ℚ := if |rnd f x| < 2 ^ f.emax then some (rnd f x) else none

end Vita.Spec
