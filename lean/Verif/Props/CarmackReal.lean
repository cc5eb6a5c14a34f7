import Verif.Props.Carmack
import Mathlib.Analysis.SpecialFunctions.Sqrt
/-!
# The fast square roots (C78): square roots of real numbers, and special values
-/

namespace Vita
open Spec Math

theorem sqrt_rel {r v : ℝ} (hr : 0 < r) (hv : 0 < v) {d : ℝ} (hd0 : 0 ≤ d) (hd : d ≤ 1) (h1 : (1 - d) ^ 2 * v ≤ r ^ 2) (h2 : r ^ 2 ≤ (1 + d) ^ 2 * v) :
    |r - Real.sqrt v| ≤ d * Real.sqrt v := by
  have hs := Real.sqrt_pos.2 hv
  have e := Real.sq_sqrt hv.le
  have a1 : (1 - d) * Real.sqrt v ≤ r := by
    apply le_of_sq_le_sq _ hr.le
    rw [mul_pow, e]; exact h1
  have a2 : r ≤ (1 + d) * Real.sqrt v := by
    apply le_of_sq_le_sq _ (by positivity)
    rw [mul_pow, e]; exact h2
  rw [abs_le]
  constructor <;> linarith

/-- **C78** For every positive normal `float` the fast square root and the fast inverse square root are finite, with a relative error of at most 10⁻⁶. -/
theorem C78_sqrt_accurate {v : ℚ} (hf : IsSingle v) (hv : (2 : ℚ) ^ (-126 : ℤ) ≤ v) :
    (∃ r, sqrtCarmack v = some r ∧ |(r : ℝ) - Real.sqrt v| ≤ 1 / 10 ^ 6 * Real.sqrt v) ∧
    (∃ r, isqrtCarmack v = some r ∧ |(r : ℝ) - 1 / Real.sqrt v| ≤ 1 / 10 ^ 6 * (1 / Real.sqrt v)) := by
  have hv0 : 0 < v := lt_of_lt_of_le (zpow_pos (by norm_num) _) hv
  have hv' : (0 : ℝ) < v := by exact_mod_cast hv0
  obtain ⟨⟨r, e, h0, h1, h2⟩, ⟨s, e', h0', h1', h2'⟩⟩ := C78_carmack hf hv
  constructor
  · refine ⟨s, e', sqrt_rel (by exact_mod_cast h0') hv' (by norm_num) (by norm_num) ?_ ?_⟩
    · have : (((1 - 1 / 10 ^ 6) ^ 2 * v : ℚ) : ℝ) ≤ ((s ^ 2 : ℚ) : ℝ) := by exact_mod_cast h1'
      push_cast at this; exact this
    · have : ((s ^ 2 : ℚ) : ℝ) ≤ (((1 + 1 / 10 ^ 6) ^ 2 * v : ℚ) : ℝ) := by exact_mod_cast h2'
      push_cast at this; exact this
  · refine ⟨r, e, ?_⟩
    have k1 : (((1 - 1 / 10 ^ 6) ^ 2 : ℚ) : ℝ) ≤ ((r ^ 2 * v : ℚ) : ℝ) := by exact_mod_cast h1
    have k2 : ((r ^ 2 * v : ℚ) : ℝ) ≤ (((1 + 1 / 10 ^ 6) ^ 2 : ℚ) : ℝ) := by exact_mod_cast h2
    push_cast at k1 k2
    have := sqrt_rel (r := (r : ℝ)) (v := 1 / (v : ℝ)) (d := 1 / 10 ^ 6) (by exact_mod_cast h0) (by positivity) (by norm_num) (by norm_num)
      (by rw [mul_one_div, div_le_iff₀ hv']; exact k1) (by rw [mul_one_div, le_div_iff₀ hv']; exact k2)
    rwa [Real.sqrt_div zero_le_one, Real.sqrt_one] at this

example : ∃ r, sqrtCarmack 2 = some r ∧ |(r : ℝ) - Real.sqrt (2 : ℚ)| ≤ 1 / 10 ^ 6 * Real.sqrt (2 : ℚ) :=
  (C78_sqrt_accurate (v := 2) ⟨⟨1, 1, by norm_num [binary32], by norm_num [binary32], by norm_num⟩, by norm_num⟩ (by norm_num)).1

theorem fl_zero (f : Fmt) : fl f 0 = some 0 := by
  unfold fl
  rw [rnd_zero, abs_zero, if_pos (zpow_pos (by norm_num) _)]

theorem fl32_eval {x : ℚ} (k : ℤ) (n : ℤ) (w : ℚ) (h1 : 2 ^ k ≤ x) (h2 : x < 2 ^ (k + 1)) (hk : -126 ≤ k) (hk2 : k ≤ 120)
    (hn : roundEven (x / 2 ^ (k - 23)) = n) (hw : (n : ℚ) * 2 ^ (k - 23) = w) : fl binary32 x = some w := by
  have hr := rnd_eval binary32 k n h1 h2 (by simp [binary32]; omega) (by simpa [binary32] using hn)
  rw [show k - (binary32.frac : ℤ) = k - 23 from rfl, hw] at hr
  unfold fl
  rw [hr, if_pos]
  have hx0 : 0 < x := lt_of_lt_of_le (zpow_pos (by norm_num) _) h1
  have hm := rnd_mono binary32 h2.le
  have hf : IsFloat binary32 (2 ^ (k + 1)) := ⟨1, k + 1, by norm_num [binary32], by simp [binary32]; omega, by push_cast; ring⟩
  rw [hr, rnd_of_float hf] at hm
  have hw0 : 0 ≤ w := by rw [← hr]; exact rnd_nonneg _ hx0.le
  rw [abs_of_nonneg hw0]
  refine lt_of_le_of_lt hm (zpow_lt_zpow_right₀ (by norm_num) ?_)
  simp [binary32]; omega

theorem roundEven_tie {x : ℚ} {n : ℤ} (h : x - n = 1 / 2 ∨ n - x = 1 / 2) (hn : n % 2 = 0) : roundEven x = n := by
  unfold roundEven
  rcases h with h | h
  · have hf : ⌊x⌋ = n := by rw [Int.floor_eq_iff]; constructor <;> linarith
    rw [hf, h, if_neg (lt_irrefl _), if_neg (lt_irrefl _), if_pos hn]
  · have hf : ⌊x⌋ = n - 1 := by rw [Int.floor_eq_iff]; push_cast; constructor <;> linarith
    have e : x - ((n - 1 : ℤ) : ℚ) = 1 / 2 := by push_cast; linarith
    rw [hf, e, if_neg (lt_irrefl _), if_neg (lt_irrefl _), if_neg (by omega)]
    omega

/-- **C78** The fast square root of 0 is 0. -/
theorem C78_sqrt_zero : sqrtCarmack 0 = some 0 := by decide +kernel

/-- **C78** (counterexample) The fast inverse square root of 0 is not infinite but about 4.5e19. -/
theorem C78_isqrt_zero : isqrtCarmack 0 = some 44589946396548792320 := by
  unfold isqrtCarmack rsqrt
  rw [show ofBits ((0x5f3759df + 2 ^ 32 - bits 0 / 2) % 2 ^ 32) = some 13211836172961054720 by decide +kernel]
  simp only [Option.bind_eq_bind, Option.bind_some, newton]
  rw [show (0 * (1 / 2) : ℚ) = 0 by norm_num, fl_zero]; simp only [Option.bind_some]
  rw [show (0 * 13211836172961054720 : ℚ) = 0 by norm_num, fl_zero]; simp only [Option.bind_some]
  rw [show (0 * 13211836172961054720 : ℚ) = 0 by norm_num, fl_zero]; simp only [Option.bind_some]
  rw [fl32_eval (x := 3 / 2 - 0) 0 12582912 (3 / 2) (by norm_num) (by norm_num) (by norm_num) (by norm_num) (by apply roundEven_of <;> norm_num) (by norm_num)]; simp only [Option.bind_some]
  rw [fl32_eval (x := 13211836172961054720 * (3 / 2)) 64 9012071 19817753709685768192 (by norm_num) (by norm_num) (by norm_num) (by norm_num) (by apply roundEven_of <;> norm_num) (by norm_num)]; simp only [Option.bind_some]
  rw [show (0 * 19817753709685768192 : ℚ) = 0 by norm_num, fl_zero]; simp only [Option.bind_some]
  rw [show (0 * 19817753709685768192 : ℚ) = 0 by norm_num, fl_zero]; simp only [Option.bind_some]
  rw [fl32_eval (x := 3 / 2 - 0) 0 12582912 (3 / 2) (by norm_num) (by norm_num) (by norm_num) (by norm_num) (by apply roundEven_of <;> norm_num) (by norm_num)]; simp only [Option.bind_some]
  rw [fl32_eval (x := 19817753709685768192 * (3 / 2)) 64 13518106 29726629465017024512 (by norm_num) (by norm_num) (by norm_num) (by norm_num) (by apply roundEven_tie <;> norm_num) (by norm_num)]; simp only [Option.bind_some]
  rw [show (0 * 29726629465017024512 : ℚ) = 0 by norm_num, fl_zero]; simp only [Option.bind_some]
  rw [show (0 * 29726629465017024512 : ℚ) = 0 by norm_num, fl_zero]; simp only [Option.bind_some]
  rw [fl32_eval (x := 3 / 2 - 0) 0 12582912 (3 / 2) (by norm_num) (by norm_num) (by norm_num) (by norm_num) (by apply roundEven_of <;> norm_num) (by norm_num)]; simp only [Option.bind_some]
  rw [fl32_eval (x := 29726629465017024512 * (3 / 2)) 65 10138580 44589946396548792320 (by norm_num) (by norm_num) (by norm_num) (by norm_num) (by apply roundEven_tie <;> norm_num) (by norm_num)]

/-- **C78** (counterexample) For numbers below the normal range the functions are far off: the fast square root of 2⁻¹³⁰ is below 0.9 of the root 2⁻⁶⁵. -/
theorem C78_sqrt_subnormal : ∃ r, sqrtCarmack (1 / 2 ^ 130) = some r ∧ r < 9 / 10 * (1 / 2 ^ 65) := by
  have e : sqrtCarmack (1 / 1361129467683753853853498429727072845824) = some (14634201 / 618970019642690137449562112) := by
    unfold sqrtCarmack rsqrt
    have hb : bits (1 / 1361129467683753853853498429727072845824) = 2 ^ 19 := by
      unfold bits bitsPos
      rw [if_neg (by norm_num), if_pos (by norm_num), show (1 / 1361129467683753853853498429727072845824 / 2 ^ (-149 : ℤ) : ℚ) = ((2 ^ 19 : ℤ) : ℚ) by norm_num, Int.floor_intCast]
      rfl
    rw [hb, show ofBits ((0x5f375a86 + 2 ^ 32 - 2 ^ 19 / 2) % 2 ^ 32) = some 12923789415251181568 by decide +kernel]
    simp only [Option.bind_eq_bind, Option.bind_some, newton]
    rw [show ((1 / 1361129467683753853853498429727072845824) * (1 / 2) : ℚ) = (1 / 2722258935367507707706996859454145691648) by norm_num, fl_float (x := (1 / 2722258935367507707706996859454145691648)) ⟨262144, -149, by norm_num [binary32], by norm_num [binary32], by norm_num⟩ (lt_big (by norm_num) (by decide))]; simp only [Option.bind_some]
    rw [fl32_eval (x := (1 / 2722258935367507707706996859454145691648) * 12923789415251181568) (-68) 11754118 (5877059 / 1237940039285380274899124224) (by norm_num) (by norm_num) (by norm_num) (by norm_num) (by apply roundEven_of <;> norm_num) (by norm_num)]; simp only [Option.bind_some]
    rw [fl32_eval (x := (5877059 / 1237940039285380274899124224) * 12923789415251181568) (-5) 16469871 (16469871 / 268435456) (by norm_num) (by norm_num) (by norm_num) (by norm_num) (by apply roundEven_of <;> norm_num) (by norm_num)]; simp only [Option.bind_some]
    rw [fl32_eval (x := 3 / 2 - (16469871 / 268435456)) 0 12068229 (12068229 / 8388608) (by norm_num) (by norm_num) (by norm_num) (by norm_num) (by apply roundEven_of <;> norm_num) (by norm_num)]; simp only [Option.bind_some]
    rw [fl32_eval (x := 12923789415251181568 * (12068229 / 8388608)) 64 8455002 18592746023738671104 (by norm_num) (by norm_num) (by norm_num) (by norm_num) (by apply roundEven_of <;> norm_num) (by norm_num)]; simp only [Option.bind_some]
    rw [fl32_eval (x := (1 / 2722258935367507707706996859454145691648) * 18592746023738671104) (-67) 8455002 (4227501 / 618970019642690137449562112) (by norm_num) (by norm_num) (by norm_num) (by norm_num) (by apply roundEven_of <;> norm_num) (by norm_num)]; simp only [Option.bind_some]
    rw [fl32_eval (x := (4227501 / 618970019642690137449562112) * 18592746023738671104) (-3) 8521921 (8521921 / 67108864) (by norm_num) (by norm_num) (by norm_num) (by norm_num) (by apply roundEven_of <;> norm_num) (by norm_num)]; simp only [Option.bind_some]
    rw [fl32_eval (x := 3 / 2 - (8521921 / 67108864)) 0 11517672 (1439709 / 1048576) (by norm_num) (by norm_num) (by norm_num) (by norm_num) (by apply roundEven_of <;> norm_num) (by norm_num)]; simp only [Option.bind_some]
    rw [fl32_eval (x := 18592746023738671104 * (1439709 / 1048576)) 64 11608832 25528091537796235264 (by norm_num) (by norm_num) (by norm_num) (by norm_num) (by apply roundEven_of <;> norm_num) (by norm_num)]; simp only [Option.bind_some]
    rw [fl32_eval (x := (1 / 2722258935367507707706996859454145691648) * 25528091537796235264) (-67) 11608832 (45347 / 4835703278458516698824704) (by norm_num) (by norm_num) (by norm_num) (by norm_num) (by apply roundEven_of <;> norm_num) (by norm_num)]; simp only [Option.bind_some]
    rw [fl32_eval (x := (45347 / 4835703278458516698824704) * 25528091537796235264) (-3) 16065238 (8032619 / 33554432) (by norm_num) (by norm_num) (by norm_num) (by norm_num) (by apply roundEven_of <;> norm_num) (by norm_num)]; simp only [Option.bind_some]
    rw [fl32_eval (x := 3 / 2 - (8032619 / 33554432)) 0 10574757 (10574757 / 8388608) (by norm_num) (by norm_num) (by norm_num) (by norm_num) (by apply roundEven_of <;> norm_num) (by norm_num)]; simp only [Option.bind_some]
    rw [fl32_eval (x := 25528091537796235264 * (10574757 / 8388608)) 64 14634201 32180948325422333952 (by norm_num) (by norm_num) (by norm_num) (by norm_num) (by apply roundEven_of <;> norm_num) (by norm_num)]; simp only [Option.bind_some]
    rw [fl32_eval (x := (1 / 1361129467683753853853498429727072845824) * 32180948325422333952) (-66) 14634201 (14634201 / 618970019642690137449562112) (by norm_num) (by norm_num) (by norm_num) (by norm_num) (by apply roundEven_of <;> norm_num) (by norm_num)]
  refine ⟨(14634201 / 618970019642690137449562112), ?_, by norm_num⟩
  rw [show (1 / 2 ^ 130 : ℚ) = 1 / 1361129467683753853853498429727072845824 by norm_num]
  exact e

end Vita
