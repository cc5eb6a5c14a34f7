import Verif.Model.MathFloat
/-!
# `vt_math_random_f32_normal` of src/vita/math/math.c

Arithmetic as in `Verif.Model.MathFloat`.  The functions of the C library are parameters.
-/

namespace Vita.Math
open Spec

/-- The functions of the C library (all on `double`): `sin` of an integer, `pow(x, 2)`, `log`, `sqrt`. -/
structure Libm where
  sin : Nat → ℚ
  pow2 : ℚ → ℚ
  log : ℚ → ℚ
  sqrt : ℚ → ℚ

/-- The `static` variables `call` and `X2`, math.c:71-72 (`X1` is not read before it is written), and those of `vt_math_random_u64`. -/
structure Normal where
  call : Bool := false
  x2 : ℚ := 0
  rng : Rng := none

/-- Lines 80 and 81 of math.c.  `RAND_MAX` is 2^31 - 1; the function takes it as it is, as the divisor it is converted to `float`, which is 2^31.  The operations
are in `float`.  No result is too large. -/
def drawU (L : Libm) (st : Rng) (now : Int) : Rng × ℚ :=
  let (st, f) := randomF32' L.sin st now 2147483647
  (st, rnd binary32 (-1 + rnd binary32 (rnd binary32 (f / 2147483648) * 2)))

/-- The loop, math.c:79-84: the state of the generator, `U1`, `U2` and `W`.  The sum is computed in `double`. -/
def polar (L : Libm) (now : Int) : (fuel : Nat) → Rng → Out (Rng × ℚ × ℚ × ℚ)
  | 0, _ => .fuel
  | fuel + 1, st =>
    let (st, u1) := drawU L st now
    let (st, u2) := drawU L st now
    let w := rnd binary32 (rnd binary64 (L.pow2 u1 + L.pow2 u2))
    if 1 ≤ w ∨ w = 0 then polar L now fuel st else .ok (st, u1, u2, w)

/-- Line 86: in `double`, then converted. -/
def polarMult (L : Libm) (w : ℚ) : ℚ := rnd binary32 (L.sqrt (rnd binary64 (rnd binary64 (-2 * L.log w) / w)))

/-- The `return` statements, math.c:76 and 92: in `float`. -/
def shifted (mu std x : ℚ) : Option ℚ := do
  let p ← fl binary32 (std * x)
  fl binary32 (mu + p)

/-- `vt_math_random_f32_normal`, math.c:69-93. -/
def randomF32Normal (L : Libm) (fuel : Nat) (st : Normal) (now : Int) (mu std : ℚ) : Out (Normal × Option ℚ) :=
  if st.call then .ok ({ st with call := false }, shifted mu std st.x2)
  else do
    let (rng, u1, u2, w) ← polar L now fuel st.rng
    let mult := polarMult L w
    let x1 := rnd binary32 (u1 * mult)
    let x2 := rnd binary32 (u2 * mult)
    .ok ({ call := true, x2 := x2, rng := rng }, shifted mu std x1)

end Vita.Math
