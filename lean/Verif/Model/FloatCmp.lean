import Verif.Model.Small
import Verif.Spec.FloatBits
/-!
# The floating point instances of src/vita/algorithm/comparison.c

The functions are `Cmp.min`, `Cmp.max` and `Cmp.clamp` (`Model/Small.lean`), here for objects of a floating point type.
-/

namespace Vita
open Spec

/-- An object of a floating point type: a pattern, whose value is given by `val`; patterns may have the same value, as the two zeros. -/
structure FNum {α : Type} (val : α → FVal) where
  pattern : α

/-- The value of an object. -/
def FNum.value {α : Type} {val : α → FVal} (x : FNum val) : FVal := val x.pattern

/-- The `<` and `>` of comparison.c:6 and 24 for `float`, `double` and `long double`. -/
instance {α : Type} {val : α → FVal} : LT (FNum val) := ⟨fun x y => x.value.Lt y.value⟩

instance {α : Type} {val : α → FVal} : DecidableLT (FNum val) := fun x y => inferInstanceAs (Decidable (x.value.Lt y.value))

/-- `float`. -/
abbrev F32 := FNum fun b : BitVec 32 => floatValue 8 23 b.toNat

/-- `double`. -/
abbrev F64 := FNum fun b : BitVec 64 => floatValue 11 52 b.toNat

end Vita
