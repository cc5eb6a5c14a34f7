import Verif.Props.Math
import Verif.Props.MathFloat
import Mathlib.Analysis.Real.Pi.Bounds
import Mathlib.Analysis.SpecialFunctions.Trigonometric.Bounds
import Mathlib.Analysis.SpecialFunctions.Trigonometric.Complex
/-!
# Ranged random numbers in floating point (C45)
-/

namespace Vita
open Spec

/-- What is assumed of the `sin` of the C library: a result within 2⁻⁴⁰ of the sine of an integer that a `double` holds exactly. -/
def GoodSin (sinD : Nat → ℚ) : Prop := ∀ k : Nat, k < 2 ^ 53 → |(sinD k : ℝ) - Real.sin k| ≤ 1 / 2 ^ 40

/-- There are such functions. -/
theorem goodSin_exists : ∃ sinD, GoodSin sinD := by
  have h : ∀ k : Nat, ∃ q : ℚ, |(q : ℝ) - Real.sin k| ≤ 1 / 2 ^ 40 := by
    intro k
    obtain ⟨q, h1, h2⟩ := exists_rat_btwn (show Real.sin (k : ℝ) < Real.sin k + 1 / 2 ^ 40 by
      have : (0 : ℝ) < 1 / 2 ^ 40 := by norm_num
      linarith)
    refine ⟨q, ?_⟩
    rw [abs_le]
    have : (0 : ℝ) < 1 / 2 ^ 40 := by norm_num
    constructor <;> linarith
  choose f hf using h
  exact ⟨f, fun k _ => hf k⟩

/-- No odd multiple of π below 20864 π is within 0.0033 of an even number. -/
theorem odd_pi_table : (List.range 10432).all (fun j =>
    33 * 10 ^ 15 ≤ (2 * j + 1) * 31415926535897932384 % (2 * 10 ^ 19) ∧ (2 * j + 1) * 31415926535897932384 % (2 * 10 ^ 19) ≤ 2 * 10 ^ 19 - 33 * 10 ^ 15) = true := by
  decide +kernel

theorem odd_pi_far {j k : Nat} (hj : j < 10432) : (0.00329 : ℝ) ≤ |2 * (k : ℝ) - (2 * j + 1) * Real.pi| := by
  have h := List.all_eq_true.1 odd_pi_table j (List.mem_range.2 hj)
  simp only [decide_eq_true_eq] at h
  obtain ⟨h1, h2⟩ := h
  obtain ⟨r, hr⟩ : ∃ r, r = (2 * j + 1) * 31415926535897932384 % (2 * 10 ^ 19) := ⟨_, rfl⟩
  obtain ⟨q, hq⟩ : ∃ q, q = (2 * j + 1) * 31415926535897932384 / (2 * 10 ^ 19) := ⟨_, rfl⟩
  have e : (2 * j + 1) * 31415926535897932384 = 2 * 10 ^ 19 * q + r := by rw [hr, hq]; exact (Nat.div_add_mod _ _).symm
  rw [← hr] at h1 h2
  have e' : (2 * (j : ℝ) + 1) * 31415926535897932384 = 2 * 10 ^ 19 * q + r := by exact_mod_cast e
  have h1' : (33 * 10 ^ 15 : ℝ) ≤ r := by exact_mod_cast h1
  have h2' : (r : ℝ) ≤ 2 * 10 ^ 19 - 33 * 10 ^ 15 := by
    have : (r : ℝ) ≤ ((2 * 10 ^ 19 - 33 * 10 ^ 15 : Nat) : ℝ) := by exact_mod_cast h2
    norm_num at this ⊢; linarith
  have g1 := Real.pi_gt_d20
  have g2 := Real.pi_lt_d20
  have hj' : (2 * (j : ℝ) + 1) ≤ 20864 := by
    have : (j : ℝ) ≤ 10431 := by exact_mod_cast (by omega : j ≤ 10431)
    linarith
  have hj0 : (0 : ℝ) ≤ 2 * j + 1 := by positivity
  have k1 := mul_le_mul_of_nonneg_left g1.le hj0
  have k2 := mul_le_mul_of_nonneg_left g2.le hj0
  rw [le_abs]
  rcases le_or_gt k q with hk | hk
  · right
    have : (k : ℝ) ≤ q := by exact_mod_cast hk
    norm_num at k1 k2 ⊢
    linarith
  · left
    have : (q : ℝ) + 1 ≤ k := by exact_mod_cast hk
    norm_num at k1 k2 ⊢
    linarith

/-- The sine of an integer below 32768 keeps away from 1 and -1. -/
theorem sin_small {k : Nat} (hk : k < 32768) : |Real.sin k| ≤ 1 - 5 / 10 ^ 7 := by
  obtain ⟨n, hn⟩ : ∃ n, n = round ((k : ℝ) / Real.pi - 1 / 2) := ⟨_, rfl⟩
  have hp := Real.pi_pos
  have hr := abs_sub_round ((k : ℝ) / Real.pi - 1 / 2)
  rw [← hn] at hr
  obtain ⟨t, ht⟩ : ∃ t, t = (k : ℝ) - (n + 1 / 2) * Real.pi := ⟨_, rfl⟩
  have ht2 : t = ((k : ℝ) / Real.pi - 1 / 2 - n) * Real.pi := by rw [ht]; field_simp; ring
  have htb : |t| ≤ Real.pi / 2 := by
    rw [ht2, abs_mul, abs_of_pos hp]
    have := mul_le_mul_of_nonneg_right hr hp.le
    linarith
  have hs : |Real.sin k| = Real.cos t := by
    have h1 : (k : ℝ) = t + Real.pi / 2 + n * Real.pi := by rw [ht]; ring
    have h2 : 0 ≤ Real.cos t := Real.cos_nonneg_of_neg_pi_div_two_le_of_le (abs_le.1 htb).1 (abs_le.1 htb).2
    rw [h1, Real.sin_add_int_mul_pi, abs_mul, abs_zpow, abs_neg, abs_one, one_zpow, one_mul, Real.sin_add_pi_div_two, abs_of_nonneg h2]
  have g1 := Real.pi_gt_d2
  have g2 := Real.pi_lt_d2
  have hfar : (0.0016 : ℝ) ≤ |t| := by
    have e2 : 2 * t = 2 * (k : ℝ) - (2 * n + 1) * Real.pi := by rw [ht]; ring
    rcases lt_or_ge n 0 with hneg | hpos
    · have h1 : (n : ℝ) ≤ -1 := by exact_mod_cast (by omega : n ≤ -1)
      have h2 : (n + 1 / 2) * Real.pi ≤ (-1 / 2) * Real.pi := mul_le_mul_of_nonneg_right (by linarith) hp.le
      have h3 : (0 : ℝ) ≤ k := by positivity
      rw [abs_of_nonneg (by rw [ht]; linarith)]
      rw [ht]; linarith
    · obtain ⟨j, rfl⟩ := Int.eq_ofNat_of_zero_le hpos
      have hj : j < 10432 := by
        by_contra hc
        have h1 : (10432 : ℝ) ≤ j := by exact_mod_cast not_lt.1 hc
        have h2 : (k : ℝ) ≤ 32767 := by exact_mod_cast (by omega : k ≤ 32767)
        have h3 : (10432 + 1 / 2) * 3.1415 ≤ ((j : ℝ) + 1 / 2) * Real.pi := mul_le_mul (by linarith) (by linarith [Real.pi_gt_d4]) (by norm_num) (by positivity)
        have h4 := (abs_le.1 htb).1
        rw [ht] at h4
        push_cast at h4
        norm_num at h3
        linarith
      have := odd_pi_far (k := k) hj
      have e3 : 2 * |t| = |2 * (k : ℝ) - (2 * (j : ℝ) + 1) * Real.pi| := by
        have : |2 * t| = 2 * |t| := by rw [abs_mul, abs_of_pos (by norm_num : (0 : ℝ) < 2)]
        rw [← this, e2]; push_cast; rfl
      rw [← e3] at this
      norm_num at this ⊢
      linarith
  rw [hs]
  refine (Real.cos_le_one_sub_mul_cos_sq (htb.trans (by linarith))).trans ?_
  have h1 : (0.0016 : ℝ) ^ 2 ≤ t ^ 2 := by rw [← sq_abs t]; exact pow_le_pow_left₀ (by norm_num) hfar 2
  have h2 : Real.pi ^ 2 ≤ 3.15 ^ 2 := pow_le_pow_left₀ hp.le g2.le 2
  have h3 : (2 : ℝ) / 3.15 ^ 2 ≤ 2 / Real.pi ^ 2 := div_le_div_of_nonneg_left (by norm_num) (by positivity) h2
  have h4 := mul_le_mul h3 h1 (by positivity) (by positivity)
  norm_num at h4 ⊢
  linarith

open Math in
/-- **C45** In `float` arithmetic, `vt_math_random_f32(bound)` is in `[0, bound)` for every bound above 0, whatever the state of the generator. -/
theorem C45_random_f32 {sinD : Nat → ℚ} (hsin : GoodSin sinD) (st : Rng) (now : Int) {bound : Nat} (hb : 0 < bound) :
    0 ≤ (randomF32' sinD st now bound).2 ∧ (randomF32' sinD st now bound).2 < bound := by
  obtain ⟨k, hk⟩ : ∃ k, k = (randomU64 st now).2 := ⟨_, rfl⟩
  have e : (randomF32' sinD st now bound).2 = rnd binary32 (rnd binary64 (bound * |rnd binary32 (sinD k)|)) := by rw [hk]; rfl
  have hk2 : k < 32768 := by rw [hk]; exact randomU64_lt st now
  have hb' : (1 : ℚ) ≤ bound := by exact_mod_cast hb
  obtain ⟨s, hs⟩ : ∃ s, s = |rnd binary32 (sinD k)| := ⟨_, rfl⟩
  have hs0 : 0 ≤ s := by rw [hs]; exact abs_nonneg _
  have hs1 : s ≤ 1 - 1 / 2 ^ 22 := by
    have h1 := hsin k (by omega)
    have h2 := sin_small hk2
    have h3 : |(sinD k : ℝ)| ≤ 1 - 1 / 2 ^ 22 := by
      have := abs_add_le ((sinD k : ℝ) - Real.sin k) (Real.sin k)
      rw [sub_add_cancel] at this
      norm_num at h1 h2 ⊢
      linarith
    have h4 : |sinD k| ≤ 1 - 1 / 2 ^ 22 := by
      rw [← Rat.cast_le (K := ℝ)]
      push_cast; exact h3
    have h5 := rnd_mono binary32 h4
    rw [rnd_abs, ← hs, rnd_of_float ⟨2 ^ 22 - 1, -22, by norm_num [binary32], by norm_num [binary32], by norm_num⟩] at h5
    exact h5
  obtain ⟨b, hbe⟩ : ∃ b : ℚ, b = bound := ⟨_, rfl⟩
  rw [e, ← hs, ← hbe]
  rw [← hbe] at hb'
  have h0 : 0 ≤ b * s := mul_nonneg (by linarith) hs0
  refine ⟨rnd_nonneg _ (rnd_nonneg _ h0), ?_⟩
  have half : ∀ f : Fmt, 0 < f.frac → f.emin ≤ -1 → rnd f (1 / 2) = 1 / 2 := fun f h1 h2 => rnd_of_float ⟨1, -1, by
    rw [abs_one]; exact one_lt_pow₀ (by norm_num) (by omega), h2, by norm_num⟩
  rcases lt_or_ge (b * s) (1 / 2) with hlt | hge
  · have h1 := rnd_mono binary32 (rnd_mono binary64 hlt.le)
    rw [half binary64 (by decide) (by decide), half binary32 (by decide) (by decide)] at h1
    linarith
  · have h1 := rnd_mono binary64 hge
    rw [half binary64 (by decide) (by decide)] at h1
    have low : ∀ {f : Fmt}, f.emin + f.frac ≤ -1 → (2 : ℚ) ^ (f.emin + f.frac) ≤ 1 / 2 := by
      intro f h
      calc (2 : ℚ) ^ (f.emin + f.frac) ≤ 2 ^ (-1 : ℤ) := zpow_le_zpow_right₀ (by norm_num) h
        _ = 1 / 2 := by norm_num
    have b1 := (rel_bounds h0 (rnd_rel (f := binary64) (by rw [abs_of_nonneg h0]; exact (low (by decide)).trans hge))).2
    have h2 : 0 ≤ rnd binary64 (b * s) := rnd_nonneg _ h0
    have b2 := (rel_bounds h2 (rnd_rel (f := binary32) (by rw [abs_of_nonneg h2]; exact (low (by decide)).trans h1))).2
    have h3 : b * s ≤ b * (1 - 1 / 2 ^ 22) := mul_le_mul_of_nonneg_left hs1 (by linarith)
    rw [show binary64.frac + 1 = 53 from rfl] at b1
    rw [show binary32.frac + 1 = 24 from rfl] at b2
    norm_num at b1 b2 h3
    linarith

example : ∃ sinD, (Math.randomF32' sinD none 1700000000 10).2 < 10 := by
  obtain ⟨f, hf⟩ := goodSin_exists
  exact ⟨f, (C45_random_f32 hf none _ (by omega)).2⟩

theorem abs_rnd_sin_le {sinD : Nat → ℚ} (hsin : GoodSin sinD) {k : Nat} (hk : k < 2 ^ 53) : |rnd binary32 (sinD k)| ≤ 1 := by
  have h1 := hsin k hk
  have h3 : |(sinD k : ℝ)| ≤ 1 + 1 / 2 ^ 40 := by
    have := abs_add_le ((sinD k : ℝ) - Real.sin k) (Real.sin k)
    rw [sub_add_cancel] at this
    have := Real.abs_sin_le_one (k : ℝ)
    linarith
  have h4 : |sinD k| ≤ 1 + 1 / 2 ^ 40 := by
    rw [← Rat.cast_le (K := ℝ)]
    push_cast; exact h3
  have h5 := rnd_mono binary32 h4
  rw [rnd_abs, rnd_eval binary32 (x := 1 + 1 / 2 ^ 40) 0 (2 ^ 23) (by norm_num) (by norm_num) (by norm_num [binary32])
    (by apply roundEven_of <;> norm_num [binary32])] at h5
  norm_num [binary32] at h5
  exact h5

/-- A `float` is a `double`. -/
theorem single_double {x : ℚ} (h : IsFloat binary32 x) : IsFloat binary64 x := by
  obtain ⟨m, e, h1, h2, h3⟩ := h
  exact ⟨m, e, lt_trans h1 (by norm_num [binary32, binary64]), le_trans (by norm_num [binary32, binary64]) h2, h3⟩

open Math in
/-- **C45** In `float` arithmetic, `vt_math_random_f32_uniform(l, u)` is never below `l`, and never above `u` if the difference of the bounds is itself a `float`.
(partial: the documentation promises `[l, u)`, see `C45_uniform_reaches_bound`; nothing is shown about the upper end if the difference is rounded.) -/
theorem C45_random_f32_uniform_float_partial {sinD : Nat → ℚ} (hsin : GoodSin sinD) (st : Rng) (now : Int) {l u r : ℚ} (hl : IsSingle l) (hu : IsSingle u)
    (h : l ≤ u) (hr : (randomF32Uniform' sinD st now l u).2 = some r) : l ≤ r ∧ (IsFloat binary32 (u - l) → r ≤ u) := by
  obtain ⟨k1, hk1⟩ : ∃ k, k = (randomU64 st now).2 := ⟨_, rfl⟩
  obtain ⟨k2, hk2⟩ : ∃ k, k = (randomU64 (randomU64 st now).1 now).2 := ⟨_, rfl⟩
  have e : (randomF32Uniform' sinD st now l u).2 = (do
    let diff ← fl binary32 (u - l)
    let prod ← fl binary64 (diff * |rnd binary32 (sinD (wmul k1 k2))|)
    let sum ← fl binary64 (l + prod)
    fl binary32 sum) := by rw [hk1, hk2]; rfl
  rw [e] at hr
  simp only [Option.bind_eq_bind, Option.bind_eq_some_iff] at hr
  obtain ⟨d, h1, p, h2, q, h3, h4⟩ := hr
  have hk : wmul k1 k2 < 2 ^ 53 := by
    have a1 : k1 < 2 ^ 15 := by rw [hk1]; exact randomU64_lt _ _
    have a2 : k2 < 2 ^ 15 := by rw [hk2]; exact randomU64_lt _ _
    have : k1 * k2 < 2 ^ 15 * 2 ^ 15 := Nat.mul_lt_mul'' a1 a2
    rw [wmul_eq (by omega)]
    omega
  obtain ⟨s, hs⟩ : ∃ s, s = |rnd binary32 (sinD (wmul k1 k2))| := ⟨_, rfl⟩
  have hs1 : s ≤ 1 := by rw [hs]; exact abs_rnd_sin_le hsin hk
  have hs0 : 0 ≤ s := by rw [hs]; exact abs_nonneg _
  rw [← hs] at h2
  have e4 := fl_some h4
  rw [fl_some h3, fl_some h2, fl_some h1] at e4
  have hd : 0 ≤ rnd binary32 (u - l) := rnd_nonneg _ (by linarith)
  have el : rnd binary32 (rnd binary64 l) = l := by rw [rnd_of_float (single_double hl.1), rnd_of_float hl.1]
  have eu : rnd binary32 (rnd binary64 u) = u := by rw [rnd_of_float (single_double hu.1), rnd_of_float hu.1]
  constructor
  · rw [← el, e4]
    refine rnd_mono _ (rnd_mono _ ?_)
    have := rnd_nonneg binary64 (mul_nonneg hd hs0)
    linarith
  · intro hf
    rw [← eu, e4, rnd_of_float hf]
    refine rnd_mono _ (rnd_mono _ ?_)
    have h5 : (u - l) * s ≤ u - l := by
      have := mul_le_mul_of_nonneg_left hs1 (show 0 ≤ u - l by linarith)
      linarith
    have := rnd_mono binary64 h5
    rw [rnd_of_float (single_double hf)] at this
    linarith

theorem sin_28005120 : (3 / 4 : ℝ) ≤ |Real.sin (28005120 : ℕ)| := by
  obtain ⟨t, ht⟩ : ∃ t : ℝ, t = 28005120 - (8914306 + 1 / 2) * Real.pi := ⟨_, rfl⟩
  have g1 := Real.pi_gt_d20
  have g2 := Real.pi_lt_d20
  have h1 : 0 ≤ t := by rw [ht]; norm_num at g2; linarith
  have h2 : t ≤ 1 / 2 := by rw [ht]; norm_num at g1; linarith
  have e : ((28005120 : ℕ) : ℝ) = t + Real.pi / 2 + (8914306 : ℤ) * Real.pi := by rw [ht]; push_cast; ring
  rw [e, Real.sin_add_int_mul_pi, abs_mul, abs_zpow, abs_neg, abs_one, one_zpow, one_mul, Real.sin_add_pi_div_two]
  refine le_trans ?_ (le_abs_self _)
  have := Real.one_sub_sq_div_two_le_cos (x := t)
  nlinarith

open Math in
/-- **C45** (counterexample) The upper bound is documented to be excluded.  In a program started at 1700000023 seconds after the epoch whose first random number is
`vt_math_random_f32_uniform(1, 1.00000012)` this number is the upper bound. -/
theorem C45_uniform_reaches_bound {sinD : Nat → ℚ} (hsin : GoodSin sinD) :
    (randomF32Uniform' sinD none 1700000023 1 (1 + 1 / 2 ^ 23)).2 = some (1 + 1 / 2 ^ 23) := by
  obtain ⟨s, hs⟩ : ∃ s, s = |rnd binary32 (sinD 28005120)| := ⟨_, rfl⟩
  have e : (randomF32Uniform' sinD none 1700000023 1 (1 + 1 / 2 ^ 23)).2 = (do
    let diff ← fl binary32 (1 + 1 / 2 ^ 23 - 1)
    let prod ← fl binary64 (diff * s)
    let sum ← fl binary64 (1 + prod)
    fl binary32 sum) := by
    rw [hs]
    have : wmul (randomU64 none 1700000023).2 (randomU64 (randomU64 none 1700000023).1 1700000023).2 = 28005120 := by decide +kernel
    rw [← this]; rfl
  have hs1 : s ≤ 1 := by rw [hs]; exact abs_rnd_sin_le hsin (by norm_num)
  have hs0 : 5 / 8 ≤ s := by
    have h1 := hsin 28005120 (by norm_num)
    have h2 := sin_28005120
    have h3 : (5 / 8 : ℝ) ≤ |(sinD 28005120 : ℝ)| := by
      have := abs_sub_abs_le_abs_sub (Real.sin (28005120 : ℕ)) (sinD 28005120 : ℝ)
      rw [abs_sub_comm] at this
      norm_num at h1 h2 this ⊢
      linarith
    have h4 : (5 / 8 : ℚ) ≤ |sinD 28005120| := by
      rw [← Rat.cast_le (K := ℝ)]
      push_cast; exact h3
    have h5 := rnd_mono binary32 h4
    rw [rnd_abs, ← hs, rnd_of_float ⟨5, -3, by norm_num [binary32], by norm_num [binary32], by norm_num⟩] at h5
    exact h5
  have hbig : ∀ {x : ℚ}, x ≤ 2 → x < 2 ^ binary64.emax := fun h => lt_big (lt_of_le_of_lt h (by norm_num)) (by decide)
  have hbig' : ∀ {x : ℚ}, x ≤ 2 → x < 2 ^ binary32.emax := fun h => lt_big (lt_of_le_of_lt h (by norm_num)) (by decide)
  have d1 : fl binary32 (1 + 1 / 2 ^ 23 - 1) = some (1 / 2 ^ 23) := by
    rw [show (1 + 1 / 2 ^ 23 - 1 : ℚ) = 1 / 2 ^ 23 by ring]
    exact fl_float ⟨1, -23, by norm_num [binary32], by norm_num [binary32], by norm_num⟩ (hbig' (by norm_num))
  -- bounds of the product, the sum and the result
  obtain ⟨p, hp⟩ : ∃ p, p = rnd binary64 (1 / 2 ^ 23 * s) := ⟨_, rfl⟩
  have p1 : 5 / 2 ^ 26 ≤ p := by
    have := rnd_mono binary64 (show (5 / 2 ^ 26 : ℚ) ≤ 1 / 2 ^ 23 * s by linarith)
    rwa [← hp, rnd_of_float ⟨5, -26, by norm_num [binary64], by norm_num [binary64], by norm_num⟩] at this
  have p2 : p ≤ 1 / 2 ^ 23 := by
    have := rnd_mono binary64 (show 1 / 2 ^ 23 * s ≤ (1 / 2 ^ 23 : ℚ) by linarith)
    rwa [← hp, rnd_of_float ⟨1, -23, by norm_num [binary64], by norm_num [binary64], by norm_num⟩] at this
  obtain ⟨q, hq⟩ : ∃ q, q = rnd binary64 (1 + p) := ⟨_, rfl⟩
  have q1 : 1 + 5 / 2 ^ 26 ≤ q := by
    have := rnd_mono binary64 (show (1 + 5 / 2 ^ 26 : ℚ) ≤ 1 + p by linarith)
    rwa [← hq, rnd_of_float ⟨2 ^ 26 + 5, -26, by norm_num [binary64], by norm_num [binary64], by norm_num⟩] at this
  have q2 : q ≤ 1 + 1 / 2 ^ 23 := by
    have := rnd_mono binary64 (show 1 + p ≤ (1 + 1 / 2 ^ 23 : ℚ) by linarith)
    rwa [← hq, rnd_of_float ⟨2 ^ 23 + 1, -23, by norm_num [binary64], by norm_num [binary64], by norm_num⟩] at this
  have r1 : 1 + 1 / 2 ^ 23 ≤ rnd binary32 q := by
    have := rnd_mono binary32 q1
    rw [rnd_eval binary32 (x := 1 + 5 / 2 ^ 26) 0 (2 ^ 23 + 1) (by norm_num) (by norm_num) (by norm_num [binary32])
      (by apply roundEven_of <;> norm_num [binary32])] at this
    refine le_trans ?_ this
    norm_num [binary32]
  have r2 : rnd binary32 q ≤ 1 + 1 / 2 ^ 23 := by
    have := rnd_mono binary32 q2
    rwa [rnd_of_float (x := 1 + 1 / 2 ^ 23) ⟨2 ^ 23 + 1, -23, by norm_num [binary32], by norm_num [binary32], by norm_num⟩] at this
  have d2 : fl binary64 (1 / 2 ^ 23 * s) = some p := by
    unfold fl; rw [← hp, if_pos]
    rw [abs_of_nonneg (by linarith)]; exact hbig (by linarith)
  have d3 : fl binary64 (1 + p) = some q := by
    unfold fl; rw [← hq, if_pos]
    rw [abs_of_nonneg (by linarith)]; exact hbig (by linarith)
  have d4 : fl binary32 q = some (1 + 1 / 2 ^ 23) := by
    unfold fl; rw [le_antisymm r2 r1, if_pos]
    rw [abs_of_nonneg (by norm_num)]; exact hbig' (by norm_num)
  rw [e, d1]
  simp only [Option.bind_eq_bind, Option.bind_some]
  rw [d2]
  simp only [Option.bind_some]
  rw [d3]
  exact d4

end Vita
