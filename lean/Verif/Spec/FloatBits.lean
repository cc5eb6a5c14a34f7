import Verif.Spec.Float
/-!
# The bits of floating point numbers, and comparing with `==`

IEEE 754: one sign bit, `ew` bits of exponent, `fw` bits of fraction.  Here, other than in `Verif.Spec.Float`, infinities, NaN and the sign of zero are told
apart.
-/

namespace Vita.Spec

/-- What a bit pattern stands for.  Both zeros are the number 0. -/
inductive FVal
  | num (q : ℚ)
  | inf (neg : Bool)
  | nan
  deriving DecidableEq

/-- The number of steps of the smallest size from 0 to the number with the exponent and fraction bits `n`. -/
def steps (fw n : Nat) : Nat :=
  if n / 2 ^ fw = 0 then n else (2 ^ fw + n % 2 ^ fw) * 2 ^ (n / 2 ^ fw - 1)

/-- The value of the pattern `b`: the smallest positive number is `2 ^ (2 - 2 ^ (ew - 1) - fw)`. -/
def floatValue (ew fw : Nat) (b : Nat) : FVal :=
  let n := b % 2 ^ (ew + fw)
  let neg := decide (b / 2 ^ (ew + fw) % 2 = 1)
  if n / 2 ^ fw = 2 ^ ew - 1 then
    if n % 2 ^ fw = 0 then .inf neg else .nan
  else .num ((if neg then -1 else 1) * (steps fw n * 2 ^ (2 - 2 ^ (ew - 1) - fw : ℤ)))

/-- `a == b` for floating point numbers: a NaN is equal to nothing, the zeros are equal. -/
def FVal.Eq : FVal → FVal → Prop
  | .num a, .num b => a = b
  | .inf a, .inf b => a = b
  | _, _ => False

/-- `a < b` for floating point numbers: false if one is a NaN. -/
def FVal.Lt : FVal → FVal → Prop
  | .num a, .num b => a < b
  | .inf true, .num _ => True
  | .num _, .inf false => True
  | .inf true, .inf false => True
  | _, _ => False

/-- `a <= b`. -/
def FVal.Le (a b : FVal) : Prop := a.Lt b ∨ a.Eq b

instance : (a b : FVal) → Decidable (a.Lt b)
  | .num a, .num b => inferInstanceAs (Decidable (a < b))
  | .inf true, .num _ => isTrue trivial
  | .num _, .inf false => isTrue trivial
  | .inf true, .inf false => isTrue trivial
  | .num _, .inf true => isFalse id
  | .num _, .nan => isFalse id
  | .inf false, .num _ => isFalse id
  | .inf false, .inf _ => isFalse id
  | .inf true, .inf true => isFalse id
  | .inf true, .nan => isFalse id
  | .inf false, .nan => isFalse id
  | .nan, _ => isFalse id

/-- `r` is the index of the first member with the property, -1 if there is none. -/
def IsFirstWith (p : α → Prop) (l : List α) (r : Int) : Prop :=
  (r = -1 ∧ ∀ y ∈ l, ¬ p y) ∨
  (∃ i : Nat, r = i ∧ (∃ y, l[i]? = some y ∧ p y) ∧ ∀ j : Nat, j < i → ∀ y, l[j]? = some y → ¬ p y)

end Vita.Spec
