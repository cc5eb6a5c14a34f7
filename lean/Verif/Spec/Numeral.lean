import Verif.Spec.Text
import Mathlib.Data.Nat.Digits.Defs
/-!
# Decimal numerals
-/

namespace Vita.Spec

/-- The canonical decimal numeral of a natural number: its digits, most significant first; `0` is "0". -/
def numeral (n : Nat) : Text :=
  if n = 0 then [48] else ((Nat.digits 10 n).reverse).map (fun d => UInt8.ofNat (48 + d))

/-- The canonical decimal numeral of an integer. -/
def numeralInt (v : Int) : Text := if v < 0 then 45 :: numeral v.natAbs else numeral v.toNat

/-- An ASCII digit. -/
def IsDigit (c : UInt8) : Prop := 48 ≤ c.toNat ∧ c.toNat ≤ 57

instance (c : UInt8) : Decidable (IsDigit c) := inferInstanceAs (Decidable (_ ∧ _))

/-- The number a digit string denotes. -/
def digitsValue (t : Text) : Nat := Nat.ofDigits 10 (t.reverse.map (fun c => c.toNat - 48))

example : numeral 1203 = [49, 50, 48, 51] ∧ digitsValue [49, 50, 48, 51] = 1203 := by decide +kernel

end Vita.Spec
