import Verif.Model.MathFloat
import Verif.Lemmas.Float
/-!
# Linear mapping (C70) and closeness (C71) in floating point
-/

namespace Vita
open Spec Math

/-- A finite `double`. -/
def IsDouble (x : ℚ) : Prop := IsFloat binary64 x ∧ |x| < 2 ^ (1024 : ℤ)

/-- A finite `float`. -/
def IsSingle (x : ℚ) : Prop := IsFloat binary32 x ∧ |x| < 2 ^ (128 : ℤ)

theorem fl_some {f : Fmt} {x y : ℚ} (h : fl f x = some y) : y = rnd f x := by
  unfold fl at h
  split at h
  · injection h with h; exact h.symm
  · cases h

theorem fl_float {f : Fmt} {x : ℚ} (h : IsFloat f x) (hx : |x| < 2 ^ f.emax) : fl f x = some x := by
  unfold fl
  rw [rnd_of_float h, if_pos hx]

/-- Two numbers of a format differ by a multiple of the least positive one. -/
theorem float_mul {f : Fmt} {x : ℚ} (h : IsFloat f x) : ∃ n : ℤ, x = n * 2 ^ f.emin := by
  obtain ⟨m, e, -, h2, h3⟩ := h
  obtain ⟨n, hn⟩ := zpow_mul_int h2
  exact ⟨m * n, by rw [h3, hn]; push_cast; ring⟩

theorem rnd_sub_pos {f : Fmt} {x y : ℚ} (hx : IsFloat f x) (hy : IsFloat f y) (h : x < y) : 0 < rnd f (y - x) := by
  obtain ⟨n, hn⟩ := float_mul hx
  obtain ⟨m, hm⟩ := float_mul hy
  have hp : (0 : ℚ) < 2 ^ f.emin := zpow_pos (by norm_num) _
  have hnm : n < m := by
    by_contra hc
    have : (m : ℚ) ≤ n := by exact_mod_cast not_lt.1 hc
    have := mul_le_mul_of_nonneg_right this hp.le
    rw [← hn, ← hm] at this
    linarith
  have h1 : (2 : ℚ) ^ f.emin ≤ y - x := by
    have : (n : ℚ) + 1 ≤ m := by exact_mod_cast hnm
    have := mul_le_mul_of_nonneg_right this hp.le
    rw [hn, hm]; linarith
  have h2 := rnd_mono f h1
  have h3 : rnd f (2 ^ f.emin) = 2 ^ f.emin := by
    have := rnd_of_float (f := f) (x := 1 * 2 ^ f.emin) ⟨1, f.emin, by
      rw [abs_one, pow_succ]; have : (0 : ℤ) < 2 ^ f.frac := by positivity
      omega, le_refl _, by push_cast; ring⟩
    simpa using this
  rw [h3] at h2
  exact lt_of_lt_of_le hp h2

/-- What `vt_math_map_to` computes if no result is infinite. -/
theorem mapTo64_some {x a b c d r : ℚ} (h : mapTo64 x a b c d = some r) :
    r = rnd binary64 (rnd binary64 (rnd binary64 (rnd binary64 (x - a) * rnd binary64 (d - c)) / rnd binary64 (b - a)) + c) := by
  unfold mapTo64 at h
  simp only [Option.bind_eq_bind, Option.bind_eq_some_iff] at h
  obtain ⟨dx, h1, dout, h2, prod, h3, width, h4, h⟩ := h
  split at h
  · cases h
  · simp only [Option.bind_eq_some_iff] at h
    obtain ⟨q, h5, h6⟩ := h
    rw [fl_some h6, fl_some h5, fl_some h4, fl_some h3, fl_some h2, fl_some h1]

/-- **C70** In `double` arithmetic, as long as no intermediate result is infinite, the mapping sends the lower end exactly to the lower end, is monotone in `x`, and
keeps `x ≥ a` at or above `c`.  (partial: the upper end is not always reached exactly, see `C70_end_exceeded` and `C70_accuracy_partial`.) -/
theorem C70_double_partial {a b c d : ℚ} (ha : IsDouble a) (hb : IsDouble b) (hc : IsDouble c) (hab : a < b) (hcd : c ≤ d) :
    (∀ r, mapTo64 a a b c d = some r → r = c) ∧
    (∀ x y r s, x ≤ y → mapTo64 x a b c d = some r → mapTo64 y a b c d = some s → r ≤ s) ∧
    (∀ x r, a ≤ x → mapTo64 x a b c d = some r → c ≤ r) := by
  have hw := rnd_sub_pos ha.1 hb.1 hab
  have hd := rnd_nonneg binary64 (sub_nonneg.2 hcd)
  have h0 : rnd binary64 (rnd binary64 (rnd binary64 (rnd binary64 (a - a) * rnd binary64 (d - c)) / rnd binary64 (b - a)) + c) = c := by
    simp [rnd_of_float hc.1]
  have mono : ∀ x y, x ≤ y → rnd binary64 (rnd binary64 (rnd binary64 (rnd binary64 (x - a) * rnd binary64 (d - c)) / rnd binary64 (b - a)) + c) ≤
      rnd binary64 (rnd binary64 (rnd binary64 (rnd binary64 (y - a) * rnd binary64 (d - c)) / rnd binary64 (b - a)) + c) := by
    intro x y hxy
    refine rnd_mono _ (add_le_add_left (rnd_mono _ (div_le_div_of_nonneg_right (rnd_mono _ (mul_le_mul_of_nonneg_right (rnd_mono _ ?_) hd)) hw.le)) c)
    linarith
  refine ⟨fun r h => ?_, fun x y r s hxy h1 h2 => ?_, fun x r hx h => ?_⟩
  · rw [mapTo64_some h, h0]
  · rw [mapTo64_some h1, mapTo64_some h2]; exact mono x y hxy
  · rw [mapTo64_some h]; exact h0.symm.le.trans (mono a x hx)

/-- 0.1 as a `double`. -/
def tenth : ℚ := 3602879701896397 / 2 ^ 55

/-- The next `double` after it. -/
def tenth' : ℚ := 7205759403792795 / 2 ^ 56

theorem roundEven_of {x : ℚ} {n : ℤ} (h1 : n - 1 / 2 < x) (h2 : x < n + 1 / 2) : roundEven x = n := by
  have h3 := abs_le.1 (roundEven_err x)
  have h4 : (roundEven x : ℚ) < n + 1 := by linarith [h3.2]
  have h5 : (n : ℚ) - 1 < roundEven x := by linarith [h3.1]
  have h6 : roundEven x < n + 1 := by exact_mod_cast h4
  have h7 : n - 1 < roundEven x := by exact_mod_cast h5
  omega

theorem lt_big {x : ℚ} {n : ℤ} (h : x < 2 ^ (20 : ℤ)) (hn : 20 ≤ n) : x < 2 ^ n :=
  lt_of_lt_of_le h (zpow_le_zpow_right₀ (by norm_num) hn)

/-- **C70** (counterexample) `vt_math_map_to(3, 0, 3, 0, 0.1)` is above 0.1. -/
theorem C70_end_exceeded : mapTo64 3 0 3 0 tenth = some tenth' ∧ tenth < tenth' := by
  have big : ∀ {x : ℚ}, x < 2 ^ (20 : ℤ) → x < 2 ^ binary64.emax := fun h => lt_big h (by decide)
  have f3 : IsFloat binary64 3 := ⟨3, 0, by norm_num [binary64], by norm_num [binary64], by norm_num⟩
  have ft : IsFloat binary64 tenth := ⟨3602879701896397, -55, by norm_num [binary64], by norm_num [binary64], by norm_num [tenth]⟩
  have ft' : IsFloat binary64 tenth' := ⟨7205759403792795, -56, by norm_num [binary64], by norm_num [binary64], by norm_num [tenth']⟩
  have e1 : fl binary64 (3 - 0) = some 3 := by rw [sub_zero]; exact fl_float f3 (big (by norm_num))
  have e2 : fl binary64 (tenth - 0) = some tenth := by rw [sub_zero]; exact fl_float ft (big (by norm_num [tenth]))
  have r3 : rnd binary64 (3 * tenth) = 5404319552844596 * 2 ^ ((-2 : ℤ) - 52) := by
    have := rnd_eval binary64 (x := 3 * tenth) (-2) 5404319552844596 (by norm_num [tenth]) (by norm_num [tenth]) (by norm_num [binary64])
      (by
        have : (3 * tenth / 2 ^ ((-2 : ℤ) - (binary64.frac : ℤ))) = 5404319552844595 + 1 / 2 := by norm_num [tenth, binary64]
        rw [this]
        unfold roundEven
        have hf : ⌊(5404319552844595 + 1 / 2 : ℚ)⌋ = 5404319552844595 := by rw [Int.floor_eq_iff]; norm_num
        rw [hf]; norm_num)
    simpa [binary64] using this
  have e3 : fl binary64 (3 * tenth) = some (5404319552844596 * 2 ^ ((-2 : ℤ) - 52)) := by
    unfold fl; rw [r3, if_pos (big (by norm_num))]
  have r4 : rnd binary64 (5404319552844596 * 2 ^ ((-2 : ℤ) - 52) / 3) = 7205759403792795 * 2 ^ ((-4 : ℤ) - 52) := by
    have := rnd_eval binary64 (x := 5404319552844596 * 2 ^ ((-2 : ℤ) - 52) / 3) (-4) 7205759403792795 (by norm_num) (by norm_num) (by norm_num [binary64])
      (by apply roundEven_of <;> norm_num [binary64])
    simpa [binary64] using this
  have e4 : fl binary64 (5404319552844596 * 2 ^ ((-2 : ℤ) - 52) / 3) = some tenth' := by
    unfold fl; rw [r4, if_pos (big (by norm_num)), show (7205759403792795 * 2 ^ ((-4 : ℤ) - 52) : ℚ) = tenth' by norm_num [tenth']]
  have e5 : fl binary64 (tenth' + 0) = some tenth' := by
    rw [add_zero]; exact fl_float ft' (big (by norm_num [tenth']))
  refine ⟨?_, by norm_num [tenth, tenth']⟩
  unfold mapTo64
  rw [e1, e2]
  simp only [Option.bind_eq_bind, Option.bind_some]
  rw [e3]
  simp only [Option.bind_some]
  rw [if_neg (by norm_num), e4]
  simp only [Option.bind_some]
  exact e5

/-- Sums of numbers of a format never lose accuracy by underflow. -/
theorem rnd_add_rel {f : Fmt} {x y : ℚ} (hx : IsFloat f x) (hy : IsFloat f y) : |rnd f (x + y) - (x + y)| ≤ |x + y| / 2 ^ (f.frac + 1) := by
  rcases le_or_gt ((2 : ℚ) ^ (f.emin + f.frac)) |x + y| with h | h
  · exact rnd_rel h
  · obtain ⟨n, hn⟩ := float_mul hx
    obtain ⟨m, hm⟩ := float_mul hy
    have hp : (0 : ℚ) < 2 ^ f.emin := zpow_pos (by norm_num) _
    have hs : x + y = ((n + m : ℤ) : ℚ) * 2 ^ f.emin := by rw [hn, hm]; push_cast; ring
    have hf : IsFloat f (x + y) := by
      refine ⟨n + m, f.emin, ?_, le_refl _, hs⟩
      rw [hs, abs_mul, abs_of_pos hp, zpow_add₀ (by norm_num), mul_comm ((2 : ℚ) ^ f.emin)] at h
      have h2 := lt_of_mul_lt_mul_right h hp.le
      have h3 : |n + m| < 2 ^ f.frac := by
        rw [zpow_natCast] at h2
        exact_mod_cast h2
      have : (0 : ℤ) < 2 ^ f.frac := by positivity
      rw [pow_succ]; omega
    rw [rnd_of_float hf, sub_self, abs_zero]
    positivity

theorem rnd_sub_rel {f : Fmt} {x y : ℚ} (hx : IsFloat f x) (hy : IsFloat f y) : |rnd f (x - y) - (x - y)| ≤ |x - y| / 2 ^ (f.frac + 1) := by
  have := rnd_add_rel hx (isFloat_neg hy)
  rwa [← sub_eq_add_neg] at this

theorem rel_bounds {z w u : ℚ} (hw : 0 ≤ w) (h : |z - w| ≤ |w| / u) : w * (1 - 1 / u) ≤ z ∧ z ≤ w * (1 + 1 / u) := by
  rw [abs_of_nonneg hw, abs_le] at h
  have : w / u = w * (1 / u) := by ring
  constructor <;> [have := h.1; have := h.2] <;> linarith

theorem quot_low {u E T z : ℚ} (hu0 : 0 < u) (hu1 : u < 1 / 1000) (hE0 : 0 ≤ E) (hz : 0 ≤ z) (hn : 4 * T ≤ E)
    (h : E * (1 - u) ^ 3 ≤ z * (1 + u)) : T ≤ z := by
  have h1 : (1 / 2 : ℚ) ≤ (1 - u) ^ 3 := by
    calc (1 / 2 : ℚ) ≤ (999 / 1000) ^ 3 := by norm_num
      _ ≤ (1 - u) ^ 3 := pow_le_pow_left₀ (by norm_num) (by linarith) 3
  have h2 := mul_le_mul_of_nonneg_left h1 hE0
  have h3 : z * (1 + u) ≤ z * 2 := mul_le_mul_of_nonneg_left (by linarith) hz
  linarith

theorem quot_bound {u E z q : ℚ} (hu0 : 0 < u) (hu1 : u < 1 / 1000) (hE0 : 0 ≤ E) (q1 : z * (1 - u) ≤ E * (1 + u) ^ 3)
    (q2 : E * (1 - u) ^ 3 ≤ z * (1 + u)) (b5 : z * (1 - u) ≤ q ∧ q ≤ z * (1 + u)) : |q - E| ≤ 6 * u * E := by
  have hu2 : u ^ 2 ≤ u / 1000 := by nlinarith
  have hu3 : u ^ 3 ≤ u / 1000 := by nlinarith
  have hu4 : u ^ 4 ≤ u / 1000 := by nlinarith [pow_pos hu0 3]
  have hp2 := pow_pos hu0 2
  have hp3 := pow_pos hu0 3
  have hp4 := pow_pos hu0 4
  rw [abs_le]
  constructor
  · have e1 : (1 - 6 * u) * (1 + u) ≤ (1 - u) ^ 4 := by
      have : (1 - u) ^ 4 = 1 - 4 * u + 6 * u ^ 2 - 4 * u ^ 3 + u ^ 4 := by ring
      have : (1 - 6 * u) * (1 + u) = 1 - 5 * u - 6 * u ^ 2 := by ring
      linarith
    have e2 := mul_le_mul_of_nonneg_right q2 (show 0 ≤ 1 - u by linarith)
    have e3 := mul_le_mul_of_nonneg_left e1 hE0
    have e4 := mul_le_mul_of_nonneg_right b5.1 (show 0 ≤ 1 + u by linarith)
    have e5 : E * (1 - 6 * u) * (1 + u) ≤ q * (1 + u) := by linarith
    have := le_of_mul_le_mul_right e5 (by linarith)
    linarith
  · have e1 : (1 + u) ^ 4 ≤ (1 + 6 * u) * (1 - u) := by
      have : (1 + u) ^ 4 = 1 + 4 * u + 6 * u ^ 2 + 4 * u ^ 3 + u ^ 4 := by ring
      have : (1 + 6 * u) * (1 - u) = 1 + 5 * u - 6 * u ^ 2 := by ring
      linarith
    have e2 := mul_le_mul_of_nonneg_right q1 (show 0 ≤ 1 + u by linarith)
    have e3 := mul_le_mul_of_nonneg_left e1 hE0
    have e4 := mul_le_mul_of_nonneg_right b5.2 (show 0 ≤ 1 - u by linarith)
    have e5 : q * (1 - u) ≤ E * (1 + 6 * u) * (1 - u) := by linarith
    have := le_of_mul_le_mul_right e5 (by linarith)
    linarith

theorem sum_bound {u E D q c r : ℚ} (hu0 : 0 < u) (hu1 : u < 1 / 1000) (hE0 : 0 ≤ E) (hED : E ≤ D) (hq : |q - E| ≤ 6 * u * E)
    (h : |r - (q + c)| ≤ |q + c| * u) : |r - (E + c)| ≤ 8 * u * (|c| + D) := by
  have hqc : |q + c| ≤ E * 2 + |c| := by
    refine (abs_add_le q c).trans ?_
    have h1 : |q| ≤ |q - E| + |E| := by
      have := abs_add_le (q - E) E
      rwa [sub_add_cancel] at this
    rw [abs_of_nonneg hE0] at h1
    have h2 : 6 * u * E ≤ 1 * E := mul_le_mul_of_nonneg_right (by linarith) hE0
    linarith
  have t1 : |r - (E + c)| ≤ |r - (q + c)| + |q - E| := by
    have : r - (E + c) = (r - (q + c)) + (q - E) := by ring
    rw [this]; exact abs_add_le _ _
  have t2 := mul_le_mul_of_nonneg_right hqc hu0.le
  have t4 := mul_le_mul_of_nonneg_left hED hu0.le
  have t6 := mul_nonneg hu0.le (abs_nonneg c)
  linarith

/-- **C70** In `double` arithmetic the result for `x` in `[a, b]` differs from the exact value by at most 2⁻⁵⁰ of the size of the target interval's numbers, and so
leaves `[c, d]` by at most that; provided the product and the quotient do not fall below the normal range, and no result is infinite.  (partial: because of these
provisos) -/
theorem C70_accuracy_partial {a b c d x r : ℚ} (ha : IsDouble a) (hb : IsDouble b) (hc : IsDouble c) (hd : IsDouble d) (hx : IsDouble x)
    (hab : a < b) (hcd : c ≤ d) (h1 : a ≤ x) (h2 : x ≤ b)
    (hn : (x - a) * (d - c) = 0 ∨ (2 : ℚ) ^ (-1020 : ℤ) ≤ (x - a) * (d - c) ∧ (2 : ℚ) ^ (-1020 : ℤ) ≤ (x - a) * (d - c) / (b - a))
    (hr : mapTo64 x a b c d = some r) :
    |r - ((x - a) * (d - c) / (b - a) + c)| ≤ (|c| + (d - c)) / 2 ^ 50 ∧ r ≤ d + (|c| + (d - c)) / 2 ^ 50 := by
  have hba : 0 < b - a := by linarith
  have hdc : 0 ≤ d - c := by linarith
  have hxa : 0 ≤ x - a := by linarith
  obtain ⟨E, hE⟩ : ∃ E, E = (x - a) * (d - c) / (b - a) := ⟨_, rfl⟩
  have hE0 : 0 ≤ E := by rw [hE]; positivity
  have hEd : E ≤ d - c := by
    rw [hE, div_le_iff₀ hba, mul_comm]
    exact mul_le_mul_of_nonneg_left (by linarith) hdc
  obtain ⟨s1, es1⟩ : ∃ s, s = rnd binary64 (x - a) := ⟨_, rfl⟩
  obtain ⟨s2, es2⟩ : ∃ s, s = rnd binary64 (d - c) := ⟨_, rfl⟩
  obtain ⟨s3, es3⟩ : ∃ s, s = rnd binary64 (b - a) := ⟨_, rfl⟩
  obtain ⟨p, ep⟩ : ∃ s, s = rnd binary64 (s1 * s2) := ⟨_, rfl⟩
  obtain ⟨q, eq⟩ : ∃ s, s = rnd binary64 (p / s3) := ⟨_, rfl⟩
  have er : r = rnd binary64 (q + c) := by rw [mapTo64_some hr, eq, ep, es1, es2, es3]
  have b1 := rel_bounds hxa (rnd_sub_rel hx.1 ha.1)
  have b2 := rel_bounds hdc (rnd_sub_rel hd.1 hc.1)
  have b3 := rel_bounds hba.le (rnd_sub_rel hb.1 ha.1)
  rw [← es1] at b1; rw [← es2] at b2; rw [← es3] at b3
  obtain ⟨u, hu⟩ : ∃ u : ℚ, u = 1 / 2 ^ (binary64.frac + 1) := ⟨_, rfl⟩
  have huv : u = 1 / 2 ^ 53 := by rw [hu]; norm_num [binary64]
  rw [← hu] at b1 b2 b3
  have hu0 : 0 < u := by rw [huv]; norm_num
  have hu1 : u < 1 / 1000 := by rw [huv]; norm_num
  have hs1 : 0 ≤ s1 := by rw [es1]; exact rnd_nonneg _ hxa
  have hs2 : 0 ≤ s2 := by rw [es2]; exact rnd_nonneg _ hdc
  have hs3 : 0 < s3 := by rw [es3]; exact rnd_sub_pos ha.1 hb.1 hab
  -- the product
  have m1 : s1 * s2 ≤ (x - a) * (d - c) * (1 + u) ^ 2 := by
    calc s1 * s2 ≤ ((x - a) * (1 + u)) * ((d - c) * (1 + u)) := mul_le_mul b1.2 b2.2 hs2 (by positivity)
      _ = _ := by ring
  have m2 : (x - a) * (d - c) * (1 - u) ^ 2 ≤ s1 * s2 := by
    calc (x - a) * (d - c) * (1 - u) ^ 2 = ((x - a) * (1 - u)) * ((d - c) * (1 - u)) := by ring
      _ ≤ s1 * s2 := mul_le_mul b1.1 b2.1 (mul_nonneg hdc (by linarith)) hs1
  have hq : |q - E| ≤ 6 * u * E := by
    rcases hn with h0 | ⟨hn1, hn2⟩
    · have e0 : s1 * s2 = 0 := le_antisymm (by rw [h0] at m1; linarith) (by positivity)
      have : q = 0 := by rw [eq, ep, e0]; simp
      have e2 : E = 0 := by rw [hE, h0, zero_div]
      rw [this, e2]; simp
    · have hpow : (2 : ℚ) ^ (-1020 : ℤ) = 4 * 2 ^ (binary64.emin + (binary64.frac : ℤ)) := by
        rw [show (4 : ℚ) = 2 ^ (2 : ℤ) by norm_num, ← zpow_add₀ (by norm_num)]; norm_num [binary64]
      have hT : (0 : ℚ) < 2 ^ (binary64.emin + (binary64.frac : ℤ)) := zpow_pos (by norm_num) _
      obtain ⟨T, hTe⟩ : ∃ T : ℚ, T = 2 ^ (binary64.emin + (binary64.frac : ℤ)) := ⟨_, rfl⟩
      rw [hpow, ← hTe] at hn1 hn2
      rw [← hTe] at hT
      have hlow : (1 : ℚ) / 2 ≤ (1 - u) ^ 2 := by nlinarith
      have m3 : T ≤ s1 * s2 := by
        have := mul_le_mul_of_nonneg_left hlow (show 0 ≤ (x - a) * (d - c) by positivity)
        linarith
      have b4 := rel_bounds (mul_nonneg hs1 hs2) (rnd_rel (f := binary64) (by rw [abs_of_nonneg (mul_nonneg hs1 hs2), ← hTe]; exact m3))
      rw [← ep, ← hu] at b4
      have hp0 : 0 ≤ p := by rw [ep]; exact rnd_nonneg _ (mul_nonneg hs1 hs2)
      have p1 : p ≤ (x - a) * (d - c) * (1 + u) ^ 3 := by
        refine b4.2.trans ?_
        have := mul_le_mul_of_nonneg_right m1 (show 0 ≤ 1 + u by linarith)
        linarith
      have p2 : (x - a) * (d - c) * (1 - u) ^ 3 ≤ p := by
        refine le_trans ?_ b4.1
        have := mul_le_mul_of_nonneg_right m2 (show 0 ≤ 1 - u by linarith)
        linarith
      have hEm : (x - a) * (d - c) = E * (b - a) := by rw [hE]; field_simp
      rw [hEm] at p1 p2
      have q1 : p / s3 * (1 - u) ≤ E * (1 + u) ^ 3 := by
        rw [div_mul_eq_mul_div, div_le_iff₀ hs3]
        have := mul_le_mul_of_nonneg_right p1 (show 0 ≤ 1 - u by linarith)
        have h3 := mul_le_mul_of_nonneg_left b3.1 (show 0 ≤ E * (1 + u) ^ 3 by positivity)
        linarith
      have q2 : E * (1 - u) ^ 3 ≤ p / s3 * (1 + u) := by
        rw [div_mul_eq_mul_div, le_div_iff₀ hs3]
        have := mul_le_mul_of_nonneg_right p2 (show 0 ≤ 1 + u by linarith)
        have h3 := mul_le_mul_of_nonneg_left b3.2 (show 0 ≤ E * (1 - u) ^ 3 from mul_nonneg hE0 (pow_nonneg (by linarith) 3))
        linarith
      have hps : 0 ≤ p / s3 := by positivity
      have q3 : T ≤ p / s3 := by
        rw [← hE] at hn2
        exact quot_low hu0 hu1 hE0 hps hn2 q2
      have b5 := rel_bounds hps (rnd_rel (f := binary64) (by rw [abs_of_nonneg hps, ← hTe]; exact q3))
      rw [← eq, ← hu] at b5
      exact quot_bound hu0 hu1 hE0 q1 q2 b5
  have b6 := rnd_add_rel (f := binary64) (x := q) (y := c) (by rw [eq]; exact rnd_isFloat _ _) hc.1
  rw [← er, div_eq_mul_one_div, ← hu] at b6
  have main : |r - (E + c)| ≤ (|c| + (d - c)) / 2 ^ 50 := by
    have t3 : (|c| + (d - c)) / 2 ^ 50 = 8 * u * (|c| + (d - c)) := by rw [huv]; ring
    rw [t3]
    exact sum_bound hu0 hu1 hE0 hEd hq b6
  rw [← hE]
  refine ⟨main, ?_⟩
  have := (abs_le.1 main).2
  linarith

example : tenth' ≤ tenth + (|(0 : ℚ)| + (tenth - 0)) / 2 ^ 50 := by
  have d3 : IsDouble 3 := ⟨⟨3, 0, by norm_num [binary64], by norm_num [binary64], by norm_num⟩, lt_big (by norm_num) (by decide)⟩
  have d0 : IsDouble 0 := ⟨isFloat_zero _, lt_big (by norm_num) (by decide)⟩
  have dt : IsDouble tenth := ⟨⟨3602879701896397, -55, by norm_num [binary64], by norm_num [binary64], by norm_num [tenth]⟩,
    lt_big (by norm_num [tenth, abs_of_pos]) (by decide)⟩
  have small : (2 : ℚ) ^ (-1020 : ℤ) ≤ 1 / 1024 := by
    rw [show (1 / 1024 : ℚ) = 2 ^ (-10 : ℤ) by norm_num]
    exact zpow_le_zpow_right₀ (by norm_num) (by norm_num)
  exact (C70_accuracy_partial (x := 3) d0 d3 d0 dt d3 (by norm_num) (by norm_num [tenth]) (by norm_num) (by norm_num)
    (Or.inr ⟨small.trans (by norm_num [tenth]), small.trans (by norm_num [tenth])⟩) C70_end_exceeded.1).2

theorem sterbenz_aux {f : Fmt} {x y : ℚ} {m n e k : ℤ} (hm : |m| < 2 ^ (f.frac + 1)) (he : f.emin ≤ e) (hx : x = m * 2 ^ e) (hy : y = n * 2 ^ k) (hek : e ≤ k)
    (h : |x - y| ≤ |x|) : IsFloat f (x - y) := by
  obtain ⟨q, hq⟩ := zpow_mul_int hek
  have hp : (0 : ℚ) < 2 ^ e := zpow_pos (by norm_num) _
  have hd : x - y = ((m - n * q : ℤ) : ℚ) * 2 ^ e := by rw [hx, hy, hq]; push_cast; ring
  refine ⟨m - n * q, e, ?_, he, hd⟩
  rw [hd, hx, abs_mul, abs_mul, abs_of_pos hp] at h
  have := le_of_mul_le_mul_right h hp
  have h2 : |m - n * q| ≤ |m| := by exact_mod_cast this
  omega

/-- Sterbenz: two numbers of a format within a factor of two of each other have an exact difference. -/
theorem sterbenz {f : Fmt} {x y : ℚ} (hx : IsFloat f x) (hy : IsFloat f y) (h0 : 0 ≤ x) (h1 : y ≤ 2 * x) (h2 : x ≤ 2 * y) : IsFloat f (x - y) := by
  obtain ⟨m, e, hm, he, ex⟩ := hx
  obtain ⟨n, k, hn, hk, ey⟩ := hy
  rcases le_total e k with h | h
  · refine sterbenz_aux hm he ex ey h ?_
    rw [abs_of_nonneg h0, abs_le]; constructor <;> linarith
  · have := sterbenz_aux hn hk ey ex h (by
      rw [abs_of_nonneg (show 0 ≤ y by linarith), abs_le]; constructor <;> linarith)
    rw [← neg_sub]
    exact isFloat_neg this

theorem isClose32_iff (x y t : ℚ) : isClose32 x y t = true ↔ |rnd binary32 (x - y)| < 2 ^ (128 : ℤ) ∧ |rnd binary32 (x - y)| < |t| := by
  unfold isClose32 fl
  by_cases h : |rnd binary32 (x - y)| < 2 ^ binary32.emax
  · simp only [if_pos h, decide_eq_true_eq]
    exact ⟨fun h2 => ⟨h, h2⟩, fun h2 => h2.2⟩
  · simp only [if_neg h]
    exact ⟨fun h2 => (by cases h2), fun h2 => (h h2.1).elim⟩

/-- **C71** In `float` arithmetic closeness is symmetric; if two numbers are found close within `t ≥ 0` their distance is below `t`; and if their distance is
itself a `float`, as it always is for two numbers of one sign within a factor of two of each other, then they are found close exactly if it is below `t`.
(partial: with a rounded difference the converse may fail, see `C71_rounding_lost`; negative tolerances do not mean what the header says, see
`C71_negative_tolerance`.) -/
theorem C71_float_partial {x y t : ℚ} (hx : IsSingle x) (hy : IsSingle y) (ht : IsSingle t) (h0 : 0 ≤ t) :
    (isClose32 x y t = isClose32 y x t) ∧
    (isClose32 x y t = true → |x - y| < t) ∧
    (IsFloat binary32 (x - y) → (isClose32 x y t = true ↔ |x - y| < t)) ∧
    (0 ≤ x → y ≤ 2 * x → x ≤ 2 * y → (isClose32 x y t = true ↔ |x - y| < t)) := by
  have hex : IsFloat binary32 (x - y) → (isClose32 x y t = true ↔ |x - y| < t) := by
    intro h
    rw [isClose32_iff, rnd_of_float h, abs_of_nonneg h0]
    have h2 := ht.2
    rw [abs_of_nonneg h0] at h2
    exact ⟨fun h => h.2, fun h => ⟨h.trans h2, h⟩⟩
  refine ⟨?_, fun h => ?_, hex, fun h1 h2 h3 => hex (sterbenz hx.1 hy.1 h1 h2 h3)⟩
  · rw [Bool.eq_iff_iff, isClose32_iff, isClose32_iff, ← neg_sub y x, rnd_neg, abs_neg]
  · rw [isClose32_iff, abs_of_nonneg h0, ← rnd_abs] at h
    by_contra hc
    have h3 := rnd_mono binary32 (not_lt.1 hc)
    rw [rnd_of_float ht.1] at h3
    linarith [h.2]

/-- **C71** (counterexample) Without an exact difference closeness may be missed: the distance of 2 and 2⁻²⁶ is below 2, but rounds to 2. -/
theorem C71_rounding_lost : |(2 : ℚ) - 1 / 2 ^ 26| < 2 ∧ isClose32 2 (1 / 2 ^ 26) 2 = false := by
  refine ⟨by rw [abs_of_pos] <;> norm_num, ?_⟩
  rw [Bool.eq_false_iff, Ne, isClose32_iff]
  have h2 : rnd binary32 2 = 2 := rnd_of_float ⟨1, 1, by norm_num [binary32], by norm_num [binary32], by norm_num⟩
  have h : rnd binary32 (2 - 1 / 2 ^ 26) = 2 := by
    have := rnd_eval binary32 (x := 2 - 1 / 2 ^ 26) 0 (2 ^ 24) (by norm_num) (by norm_num) (by norm_num [binary32]) (by apply roundEven_of <;> norm_num [binary32])
    rw [this]; norm_num [binary32]
  rw [h]
  norm_num

/-- **C71** (counterexample) A negative tolerance is documented to select the machine epsilon (1.19e-7), but 1 and 1.75 are "close" for -1. -/
theorem C71_negative_tolerance : isClose32 1 (7 / 4) (-1) = true := by
  rw [isClose32_iff, show (1 - 7 / 4 : ℚ) = -(3 / 4) by norm_num, rnd_of_float ⟨-3, -2, by norm_num [binary32], by norm_num [binary32], by norm_num⟩]
  norm_num [abs_of_neg]

/-- **C71** (counterexample) With tolerance 0 no number is close to itself. -/
theorem C71_zero_tolerance (x : ℚ) : isClose32 x x 0 = false := by
  rw [Bool.eq_false_iff, Ne, isClose32_iff, sub_self, rnd_zero]
  simp

example : isClose32 1 (3 / 4) (1 / 2) = true :=
  ((C71_float_partial (x := 1) (y := 3 / 4) (t := 1 / 2) ⟨⟨1, 0, by norm_num [binary32], by norm_num [binary32], by norm_num⟩, by norm_num⟩
    ⟨⟨3, -2, by norm_num [binary32], by norm_num [binary32], by norm_num⟩, by rw [abs_of_pos] <;> norm_num⟩
    ⟨⟨1, -1, by norm_num [binary32], by norm_num [binary32], by norm_num⟩, by rw [abs_of_pos] <;> norm_num⟩ (by norm_num)).2.2.2
    (by norm_num) (by norm_num) (by norm_num)).2 (by rw [abs_of_pos] <;> norm_num)

end Vita
