import Verif.Base.Outcome
/-!
# Model of src/vita/math/math.c (integer functions)

`int64_t` values are integers; an operation whose result does not fit is undefined.  The floating point
functions (math.c:15-45, 59-97) are not modelled here.
-/

namespace Vita
namespace Math

/-- The loop of `vt_math_is_palindrome`, math.c:7-10: `tempNum` and `reversed` (`uint64_t`, wraps). -/
def revLoop : (fuel : Nat) → (tempNum reversed : Nat) → Out Nat
  | 0, _, _ => .fuel
  | fuel + 1, t, r =>
      if t > 0 then revLoop fuel (t / 10) (wadd (wmul r 10) (t % 10)) else .ok r

/-- `vt_math_is_palindrome`, math.c:3-13. -/
def isPalindrome (fuel : Nat) (num : Nat) : Out Bool := do
  let reversed ← revLoop fuel num 0
  .ok (reversed == num)

/-- `int64_t` values. -/
def InI64 (x : Int) : Prop := -2 ^ 63 ≤ x ∧ x < 2 ^ 63

instance (x : Int) : Decidable (InI64 x) := inferInstanceAs (Decidable (_ ∧ _))

/-- `a % b` in `int64_t`: truncating; undefined for `b = 0` and if the quotient does not fit. -/
def imod (a b : Int) : Out Int :=
  if b = 0 ∨ ¬ InI64 (a.tdiv b) then .ub else .ok (a.tmod b)

/-- `a / b` in `int64_t`. -/
def idiv (a b : Int) : Out Int :=
  if b = 0 ∨ ¬ InI64 (a.tdiv b) then .ub else .ok (a.tdiv b)

/-- `a * b` in `int64_t`. -/
def imul (a b : Int) : Out Int := if InI64 (a * b) then .ok (a * b) else .ub

/-- The loop of `vt_math_gcd`, math.c:105-109. -/
def gcdLoop : (fuel : Nat) → (high low : Int) → Out Int
  | 0, _, _ => .fuel
  | fuel + 1, high, low => do
    let rem ← imod high low
    if rem ≠ 0 then gcdLoop fuel low rem else .ok low

/-- `vt_math_gcd`, math.c:99-112. -/
def gcd (fuel : Nat) (a b : Int) : Out Int :=
  let low := if a ≥ b then b else a
  let high := if a ≥ b then a else b
  gcdLoop fuel high low

/-- `vt_math_lcm`, math.c:114-116: `a / gcd(a, b) * b`. -/
def lcm (fuel : Nat) (a b : Int) : Out Int := do
  let g ← gcd fuel a b
  let q ← idiv a g
  imul q b

/-- The state of the generator (the two `static` variables of math.c:48-49): `none` before the first call. -/
abbrev Rng := Option Int

/-- `vt_math_random_u64`, math.c:47-57: the new state and the result.  `now` is what `time(NULL)` returns
(`time_t` is `int64_t`).  The product and sum are computed in `uint64_t`; the remainder is below 2^32,
so storing it in a `time_t` keeps its value.  The mask 0x3FFF8000 keeps bits 15 to 29. -/
def randomU64 (st : Rng) (now : Int) : Rng × Nat :=
  let t : Int := st.getD now
  let x : Nat := (wadd (wmul 0x343FD (t % 2 ^ 64).toNat) 0x269EC3) % 0xFFFFFFFF
  (some (x : Int), (x &&& 0x3FFF8000) >>> 15)

end Math
end Vita
