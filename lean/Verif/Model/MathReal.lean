import Verif.Model.Math
import Mathlib.Data.Real.Basic
/-!
# Idealised model of `vt_math_map_to` of src/vita/math/math.c

Real numbers in place of `double`; with rounding it is in `Verif.Model.MathFloat`.
-/

namespace Vita
namespace Math

/-- `vt_math_map_to`, math.c:15-17. -/
noncomputable def mapTo (x xMin xMax outMin outMax : ℝ) : ℝ := (x - xMin) * (outMax - outMin) / (xMax - xMin) + outMin

end Math
end Vita
