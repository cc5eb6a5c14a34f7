import Verif.Spec.Float
import Verif.Model.DateTime
/-!
# `vt_datetime_diff` of src/vita/time/datetime.c

The function computes with `float`; each operation is rounded as in `Verif.Spec.Float`, in the type of its operands
(`FLT_EVAL_METHOD` 0).  No value is too large for a `float`, since a `time_t` is below `2^63`.
-/

namespace Vita
namespace DT
open Spec

/-- Conversion of a floating point number to an integer type: the fraction is dropped. -/
def trunc (x : ℚ) : Int := if 0 ≤ x then ⌊x⌋ else ⌈x⌉

/-- The value of a `time_t` converted to `float`. -/
def toF (n : Int) : ℚ := rnd binary32 n

/-- `diff_secs/secs_in_one_day`, datetime.c:278. -/
def quotient (s : Int) : ℚ := rnd binary32 (toF s / 86400)

/-- `(… - part)*factor` of datetime.c:279-281: what is left of `x` after its whole part, in the next unit. -/
def nextUnit (x : ℚ) (factor : Int) : ℚ := rnd binary32 (rnd binary32 (x - toF (trunc x)) * factor)

/-- The four numbers computed at datetime.c:278-281 for a difference of `s` seconds: days, hours, minutes, seconds. -/
def parts (s : Int) : Int × Int × Int × Int :=
  let q := quotient s
  let x := nextUnit q 24
  let y := nextUnit x 60
  let z := nextUnit y 60
  (trunc q, trunc x, trunc y, trunc z)

/-- `vt_datetime_diff`, datetime.c:272-289. -/
def diff (zn : Zone) (a b : VDT) : VDT :=
  let p := parts (diffSecs zn a b)
  ⟨0, 0, i16 p.1, i16 p.2.1, i16 p.2.2.1, i16 p.2.2.2, 0, 0⟩

end DT
end Vita
