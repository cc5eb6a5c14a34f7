import Verif.Spec.Float
import Verif.Model.Math
/-!
# Floating point functions of src/vita/math/math.c

With the arithmetic of IEEE 754 (`Verif.Spec.Float`), rounding to nearest, each operation in the type of its operands (`FLT_EVAL_METHOD` 0), no contraction to
fused operations.  `none` stands for results that are not finite.
-/

namespace Vita.Math
open Spec

/-- `vt_math_map_to`, math.c:15-17. -/
def mapTo64 (x xMin xMax outMin outMax : ℚ) : Option ℚ := do
  let dx ← fl binary64 (x - xMin)
  let dout ← fl binary64 (outMax - outMin)
  let prod ← fl binary64 (dx * dout)
  let width ← fl binary64 (xMax - xMin)
  if width = 0 then none
  else
    let quot ← fl binary64 (prod / width)
    fl binary64 (quot + outMin)

/-- `vt_math_is_close`, math.c:95-97: the difference is computed in `float`; an infinite one is not below anything finite. -/
def isClose32 (lhs rhs rtol : ℚ) : Bool :=
  match fl binary32 (lhs - rhs) with
  | none => false
  | some d => decide (|d| < |rtol|)

/-- `vt_math_random_f32`, math.c:59-62: the sine, computed by the C library in `double` (`sinD`), is stored as a `float`; the product with the absolute value is
computed in `double` and returned as a `float`.  The bound is a `uint32_t`, so nothing is too large for a `float`. -/
def randomF32' (sinD : Nat → ℚ) (st : Rng) (now : Int) (bound : Nat) : Rng × ℚ :=
  let (st, r) := randomU64 st now
  (st, rnd binary32 (rnd binary64 (bound * |rnd binary32 (sinD r)|)))

/-- `vt_math_random_f32_uniform`, math.c:64-67: the difference of the bounds is computed in `float`, the product and the sum in `double`.  The two numbers
drawn are multiplied as `uint64_t`. -/
def randomF32Uniform' (sinD : Nat → ℚ) (st : Rng) (now : Int) (lbound ubound : ℚ) : Rng × Option ℚ :=
  let (st, r1) := randomU64 st now
  let (st, r2) := randomU64 st now
  (st, do
    let diff ← fl binary32 (ubound - lbound)
    let prod ← fl binary64 (diff * |rnd binary32 (sinD (wmul r1 r2))|)
    let sum ← fl binary64 (lbound + prod)
    fl binary32 sum)

/-- The bits of a finite non-negative `float`: exponent field and fraction. -/
def bitsPos (x : ℚ) : Nat :=
  if x < 2 ^ (-126 : ℤ) then ⌊x / 2 ^ (-149 : ℤ)⌋.toNat
  else (Int.log 2 x + 126).toNat * 2 ^ 23 + ⌊x / 2 ^ (Int.log 2 x - 23)⌋.toNat

/-- The bits of a finite `float`, as an `uint32_t`; the sign is the highest one.  (Of the two zeros the positive one is taken.) -/
def bits (x : ℚ) : Nat := if x < 0 then 2 ^ 31 + bitsPos (-x) else bitsPos x

/-- The value of the `float` with the given bits; `none` for infinities and NaN. -/
def ofBits (i : Nat) : Option ℚ :=
  let e : Nat := i / 2 ^ 23 % 2 ^ 8
  let m : Nat := i % 2 ^ 23
  let sign : ℚ := if i / 2 ^ 31 % 2 = 1 then -1 else 1
  if e = 255 then none
  else if e = 0 then some (sign * (m * 2 ^ (-149 : ℤ)))
  else some (sign * (((2 ^ 23 + m : Nat) : ℚ) * 2 ^ ((e : ℤ) - 150)))

/-- One of the lines 26-28 and 40-42 of math.c: `conv.f *= 1.5F - (v * 0.5F * conv.f * conv.f)`. -/
def newton (v y : ℚ) : Option ℚ := do
  let h ← fl binary32 (v * (1 / 2))
  let a ← fl binary32 (h * y)
  let b ← fl binary32 (a * y)
  let c ← fl binary32 (3 / 2 - b)
  fl binary32 (y * c)

/-- The first four statements of both functions: reading the bits through the union, the subtraction in `uint32_t`, and three times line 26. -/
def rsqrt (magic : Nat) (v : ℚ) : Option ℚ := do
  let y0 ← ofBits ((magic + 2 ^ 32 - bits v / 2) % 2 ^ 32)
  let y1 ← newton v y0
  let y2 ← newton v y1
  newton v y2

/-- `vt_math_sqrt_carmack`, math.c:19-31. -/
def sqrtCarmack (v : ℚ) : Option ℚ := do
  let y ← rsqrt 0x5f375a86 v
  fl binary32 (v * y)

/-- `vt_math_isqrt_carmack`, math.c:33-45. -/
def isqrtCarmack (v : ℚ) : Option ℚ := rsqrt 0x5f3759df v

end Vita.Math
