import Verif.Model.MathReal
import Mathlib.Tactic.Linarith
import Mathlib.Tactic.FieldSimp
import Mathlib.Tactic.Ring
/-!
# Linear mapping (C70) with real numbers in place of `double`
-/

namespace Vita
open Out

/-- **C70** (partial: real numbers in place of `double`.)  The mapping sends the ends of the first interval to the ends of the second, and
the first interval into the second, monotonically. -/
theorem C70_map_to_partial {a b c d : ℝ} (hab : a < b) (hcd : c ≤ d) :
    Math.mapTo a a b c d = c ∧ Math.mapTo b a b c d = d ∧
    (∀ x, a ≤ x → x ≤ b → c ≤ Math.mapTo x a b c d ∧ Math.mapTo x a b c d ≤ d) ∧
    (∀ x y, x ≤ y → Math.mapTo x a b c d ≤ Math.mapTo y a b c d) := by
  have hp : 0 < b - a := by linarith
  have mono : ∀ x y, x ≤ y → Math.mapTo x a b c d ≤ Math.mapTo y a b c d := by
    intro x y hxy
    simp only [Math.mapTo]
    have : (x - a) * (d - c) / (b - a) ≤ (y - a) * (d - c) / (b - a) := by
      apply div_le_div_of_nonneg_right _ hp.le
      nlinarith
    linarith
  have e1 : Math.mapTo a a b c d = c := by simp [Math.mapTo]
  have e2 : Math.mapTo b a b c d = d := by
    simp only [Math.mapTo]
    rw [mul_comm, mul_div_assoc, div_self hp.ne']
    ring
  refine ⟨e1, e2, fun x h1 h2 => ⟨?_, ?_⟩, mono⟩
  · rw [← e1]; exact (mono a x h1).trans_eq (by rw [e1])
  · exact (mono x b h2).trans_eq e2

/-- **C70** (partial: real numbers in place of `double`.)  Mapping there and back is the identity. -/
theorem C70_map_to_inverse_partial {a b c d : ℝ} (hab : a ≠ b) (hcd : c ≠ d) (x : ℝ) :
    Math.mapTo (Math.mapTo x a b c d) c d a b = x := by
  have h1 : b - a ≠ 0 := sub_ne_zero.2 hab.symm
  have h2 : d - c ≠ 0 := sub_ne_zero.2 hcd.symm
  simp only [Math.mapTo]
  field_simp
  ring

end Vita
