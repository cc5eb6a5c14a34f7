import Verif.Props.MathFloat
/-!
# What a negative tolerance means
-/

namespace Vita
open Spec Math

/-- **C71** What the code does for a negative tolerance, of any size: the same as for the positive one, where the header promises the machine epsilon. -/
theorem C71_negative_actual {x y t : ℚ} (hx : IsSingle x) (hy : IsSingle y) (ht : IsSingle t) (h0 : t < 0) :
    isClose32 x y t = isClose32 x y (-t) ∧
      (isClose32 x y t = true → |x - y| < -t) ∧
      (IsFloat binary32 (x - y) → (isClose32 x y t = true ↔ |x - y| < -t)) := by
  have e : isClose32 x y t = isClose32 x y (-t) := by unfold isClose32; rw [abs_neg]
  obtain ⟨-, h1, h2, -⟩ := C71_float_partial hx hy (t := -t) ⟨isFloat_neg ht.1, by rw [abs_neg]; exact ht.2⟩ (by linarith)
  refine ⟨e, ?_, ?_⟩
  · rw [e]; exact h1
  · rw [e]; exact h2

example : IsSingle 1 ∧ IsSingle (7 / 4) ∧ IsSingle (-1) ∧ IsFloat binary32 (1 - 7 / 4) := by
  refine ⟨⟨⟨1, 0, ?_, ?_, ?_⟩, ?_⟩, ⟨⟨7, -2, ?_, ?_, ?_⟩, ?_⟩, ⟨⟨-1, 0, ?_, ?_, ?_⟩, ?_⟩, ⟨-3, -2, ?_, ?_, ?_⟩⟩ <;> norm_num [binary32, abs_of_pos]

end Vita
