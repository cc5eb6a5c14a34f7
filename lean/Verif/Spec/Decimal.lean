import Verif.Spec.Float
import Verif.Spec.Numeral
/-!
# Decimal fractions as texts
-/

namespace Vita.Spec

/-- The number a text of digits `ip`, a dot and digits `fp` denotes. -/
def fractionValue (ip fp : Text) : ℚ := (digitsValue (ip ++ fp) : ℚ) / 10 ^ fp.length

/-- The text `t` is the number `x ≥ 0` rounded to six decimals: the canonical numeral of a number, a dot, six digits; no other number with six decimals is
closer, and of two equally close ones the last digit is even. -/
def IsSixDecimals (t : Text) (x : ℚ) : Prop :=
  ∃ (n : Nat) (fp : Text), t = numeral n ++ 46 :: fp ∧ fp.length = 6 ∧ (∀ c ∈ fp, IsDigit c) ∧
    (∀ k : Nat, |fractionValue (numeral n) fp - x| ≤ |(k : ℚ) / 10 ^ 6 - x|) ∧
    (∀ k : Nat, (k : ℚ) / 10 ^ 6 ≠ fractionValue (numeral n) fp → |(k : ℚ) / 10 ^ 6 - x| = |fractionValue (numeral n) fp - x| →
      ∃ c, fp.getLast? = some c ∧ c.toNat % 2 = 0)

/-- `y` is a number of the format closest to `q`. -/
def IsNearest (f : Fmt) (q y : ℚ) : Prop := IsFloat f y ∧ ∀ y', IsFloat f y' → |y - q| ≤ |y' - q|

end Vita.Spec
