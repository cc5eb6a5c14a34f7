import Verif.Model.DateDiff
import Verif.Props.MathFloat
import Verif.Props.DateTime
/-!
# Property C81: differences in days, hours, minutes and seconds
-/

namespace Vita
open Spec DT

/-- The fractional part of a non-negative number of the format is one as well. -/
theorem frac_float {f : Spec.Fmt} {x : ℚ} (h : IsFloat f x) (h0 : 0 ≤ x) : IsFloat f (x - ⌊x⌋) := by
  obtain ⟨m, e, hm, he, hx⟩ := h
  by_cases hc : 0 ≤ e
  · obtain ⟨n, rfl⟩ := Int.eq_ofNat_of_zero_le hc
    have : x = ((m * 2 ^ n : ℤ) : ℚ) := by rw [hx]; push_cast; simp
    rw [this, Int.floor_intCast, sub_self]
    exact isFloat_zero f
  · obtain ⟨n, hn⟩ := Int.eq_ofNat_of_zero_le (show 0 ≤ -e by omega)
    have he' : e = -(n : ℤ) := by omega
    have hp : (2 : ℚ) ^ e * 2 ^ n = 1 := by rw [he', zpow_neg, zpow_natCast]; exact inv_mul_cancel₀ (by positivity)
    have hpos : (0 : ℚ) < 2 ^ e := zpow_pos (by norm_num) _
    have hfl : 0 ≤ ⌊x⌋ := Int.floor_nonneg.2 h0
    refine ⟨m - ⌊x⌋ * 2 ^ n, e, ?_, he, ?_⟩
    · have hle : (⌊x⌋ : ℚ) ≤ x := Int.floor_le x
      have h1 : ((⌊x⌋ * 2 ^ n : ℤ) : ℚ) ≤ m := by
        push_cast
        have : (⌊x⌋ : ℚ) * 2 ^ n ≤ x * 2 ^ n := mul_le_mul_of_nonneg_right hle (by positivity)
        have e2 : x * 2 ^ n = m := by rw [hx, mul_assoc, hp, mul_one]
        rw [e2] at this
        exact this
      have h2 : ⌊x⌋ * 2 ^ n ≤ m := by exact_mod_cast h1
      have h3 : 0 ≤ ⌊x⌋ * 2 ^ n := by positivity
      rw [abs_lt] at hm ⊢
      constructor <;> omega
    · push_cast
      rw [sub_mul, ← hx, mul_assoc, mul_comm ((2 : ℚ) ^ n), hp, mul_one]

/-- A number of the format below 1 is at most `1 - 2^-24`. -/
theorem float32_lt_one {x : ℚ} (h : IsFloat binary32 x) (h1 : x < 1) : x ≤ 1 - 1 / 2 ^ 24 := by
  obtain ⟨m, e, hm, he, hx⟩ := h
  by_cases hc : -24 ≤ e
  · obtain ⟨n, hn⟩ := Int.eq_ofNat_of_zero_le (show 0 ≤ e + 24 by omega)
    have e' : x = ((m * 2 ^ n : ℤ) : ℚ) / 2 ^ 24 := by
      rw [hx]; push_cast
      rw [show e = (n : ℤ) - 24 by omega, zpow_sub₀ (by norm_num)]
      norm_num; ring
    rw [e'] at h1 ⊢
    rw [div_lt_one (by norm_num)] at h1
    have : m * 2 ^ n < 2 ^ 24 := by exact_mod_cast h1
    have h2 : m * 2 ^ n ≤ 2 ^ 24 - 1 := by omega
    have h3 : ((m * 2 ^ n : ℤ) : ℚ) ≤ 2 ^ 24 - 1 := by exact_mod_cast h2
    rw [div_le_iff₀ (by norm_num)]
    linarith
  · have hm' : (m : ℚ) ≤ 2 ^ 24 := by
      have := (abs_lt.1 hm).2
      simp only [binary32] at this
      exact_mod_cast this.le
    have : (2 : ℚ) ^ e ≤ 2 ^ (-25 : ℤ) := zpow_le_zpow_right₀ (by norm_num) (by omega)
    have hp : (0 : ℚ) < 2 ^ e := zpow_pos (by norm_num) _
    have h3 : x ≤ 2 ^ 24 * 2 ^ (-25 : ℤ) := by
      rw [hx]
      calc (m : ℚ) * 2 ^ e ≤ 2 ^ 24 * 2 ^ e := mul_le_mul_of_nonneg_right hm' hp.le
        _ ≤ _ := mul_le_mul_of_nonneg_left this (by positivity)
    norm_num at h3 ⊢
    linarith

/-- Absolute error of rounding a number below `2^(k+1)`. -/
theorem rnd32_err {v : ℚ} (k : ℤ) (h0 : 0 ≤ v) (h1 : v < 2 ^ (k + 1)) (hk : -126 ≤ k) : |rnd binary32 v - v| ≤ 2 ^ (k - 24) := by
  rcases h0.eq_or_lt with rfl | hp
  · simp only [rnd_zero, sub_zero, abs_zero]; exact (zpow_pos (by norm_num) _).le
  have h := rnd_err binary32 v
  rw [abs_of_nonneg h0] at h
  have hq : quantum binary32 v ≤ 2 ^ (k - 23) := by
    unfold quantum
    apply zpow_le_zpow_right₀ (by norm_num)
    have hl : Int.log 2 v ≤ k := by
      by_contra hc
      have : (2 : ℚ) ^ (k + 1) ≤ 2 ^ Int.log 2 v := zpow_le_zpow_right₀ (by norm_num) (by omega)
      exact absurd (this.trans (zpow_le_self hp)) (not_le.2 h1)
    simp only [binary32]
    omega
  have e : (2 : ℚ) ^ (k - 23) = 2 ^ (k - 24) * 2 := by
    rw [show k - 23 = (k - 24) + 1 by ring, zpow_add_one₀ (by norm_num)]
  rw [e] at hq
  linarith

theorem int_float {n : Int} (h : |n| ≤ 2 ^ 24) : IsFloat binary32 (n : ℚ) := by
  have := isFloat_int_mul (f := binary32) (n := n) (k := 0) (by simpa [binary32] using h) (by simp [binary32])
  simpa using this

theorem toF_eq {n : Int} (h : |n| ≤ 2 ^ 24) : toF n = n := rnd_of_float (int_float h)

theorem trunc_pos {x : ℚ} (h : 0 ≤ x) : trunc x = ⌊x⌋ := by simp [trunc, h]

/-- The whole part of a non-negative `float` is converted back exactly: below `2^24` every integer is a `float`, and above every `float` is an integer. -/
theorem toF_trunc {x : ℚ} (hx : IsFloat binary32 x) (h0 : 0 ≤ x) : toF (trunc x) = ⌊x⌋ := by
  rw [trunc_pos h0]
  have hf0 : 0 ≤ ⌊x⌋ := Int.floor_nonneg.2 h0
  by_cases h1 : x < 2 ^ 24
  · have hf1 : ⌊x⌋ < 2 ^ 24 := by rw [Int.floor_lt]; exact_mod_cast h1
    exact toF_eq (by rw [abs_of_nonneg hf0]; omega)
  · have hi : x = (⌊x⌋ : ℚ) := by
      obtain ⟨m, e, hm, he, hxe⟩ := hx
      have hc : 0 ≤ e := by
        by_contra hc
        have hm' : (m : ℚ) < 2 ^ 24 := by
          have := (abs_lt.1 hm).2
          simp only [binary32] at this
          exact_mod_cast this
        have h2 : (2 : ℚ) ^ e ≤ 1 := zpow_le_one_of_nonpos₀ (by norm_num) (by omega)
        have hp : (0 : ℚ) < 2 ^ e := zpow_pos (by norm_num) _
        have : x < 2 ^ 24 := by
          rw [hxe]
          calc (m : ℚ) * 2 ^ e < 2 ^ 24 * 2 ^ e := mul_lt_mul_of_pos_right hm' hp
            _ ≤ 2 ^ 24 * 1 := mul_le_mul_of_nonneg_left h2 (by positivity)
            _ = 2 ^ 24 := mul_one _
        exact h1 this
      obtain ⟨n, rfl⟩ := Int.eq_ofNat_of_zero_le hc
      have : x = ((m * 2 ^ n : ℤ) : ℚ) := by rw [hxe]; push_cast; simp
      rw [this, Int.floor_intCast]
    unfold toF
    rw [← hi]
    exact rnd_of_float hx

/-- One step of the computation, on a non-negative `float`: the fraction is exact, and its multiple by the number of units stays below that number. -/
theorem nextUnit_step {x : ℚ} (hx : IsFloat binary32 x) (h0 : 0 ≤ x) (n : Int) (hn : n = 24 ∨ n = 60) :
    IsFloat binary32 (nextUnit x n) ∧ 0 ≤ nextUnit x n ∧ nextUnit x n < n ∧
    |nextUnit x n - (x - trunc x) * n| ≤ 1 / 2 ^ (if n = 24 then 20 else 19) := by
  have ht := trunc_pos h0
  have hfl := toF_trunc hx h0
  have hfr := frac_float hx h0
  have hr : rnd binary32 (x - toF (trunc x)) = x - ⌊x⌋ := by rw [hfl]; exact rnd_of_float hfr
  have a0 : 0 ≤ x - ⌊x⌋ := by have := Int.floor_le x; linarith
  have a1 : x - ⌊x⌋ < 1 := by have := Int.lt_floor_add_one x; linarith
  have a2 := float32_lt_one hfr a1
  have hv : nextUnit x n = rnd binary32 ((x - ⌊x⌋) * n) := by unfold nextUnit; rw [hr]
  rw [hv, ht]
  generalize x - (⌊x⌋ : ℚ) = w at *
  refine ⟨rnd_isFloat _ _, ?_, ?_, ?_⟩
  · apply rnd_nonneg
    rcases hn with rfl | rfl <;> positivity
  · rcases hn with rfl | rfl
    · have hP : IsFloat binary32 (24 - 1 / 2 ^ 19) := ⟨12582911, -19, by norm_num [binary32], by norm_num [binary32], by norm_num⟩
      have hn := rnd_nearest (f := binary32) (x := (1 - 1 / 2 ^ 24) * 24) hP
      have hm : rnd binary32 (w * (24 : Int)) ≤ rnd binary32 ((1 - 1 / 2 ^ 24) * 24) := by
        apply rnd_mono
        push_cast
        exact mul_le_mul_of_nonneg_right a2 (by norm_num)
      refine lt_of_le_of_lt hm ?_
      have h2 := (abs_le.1 hn).2
      rw [abs_of_nonpos (by norm_num)] at h2
      push_cast
      norm_num at h2 ⊢
      linarith
    · have hP : IsFloat binary32 (60 - 1 / 2 ^ 18) := ⟨15728639, -18, by norm_num [binary32], by norm_num [binary32], by norm_num⟩
      have hn := rnd_nearest (f := binary32) (x := (1 - 1 / 2 ^ 24) * 60) hP
      have hm : rnd binary32 (w * (60 : Int)) ≤ rnd binary32 ((1 - 1 / 2 ^ 24) * 60) := by
        apply rnd_mono
        push_cast
        exact mul_le_mul_of_nonneg_right a2 (by norm_num)
      refine lt_of_le_of_lt hm ?_
      have h2 := (abs_le.1 hn).2
      rw [abs_of_nonpos (by norm_num)] at h2
      push_cast
      norm_num at h2 ⊢
      linarith
  · rcases hn with rfl | rfl
    · have := rnd32_err (v := w * (24 : Int)) 4 (by push_cast; positivity) (by push_cast; linarith) (by norm_num)
      norm_num at this ⊢
      exact this
    · have := rnd32_err (v := w * (60 : Int)) 5 (by push_cast; positivity) (by push_cast; linarith) (by norm_num)
      norm_num at this ⊢
      exact this

/-- The number of seconds that the four fields denote. -/
def partsTotal (p : Int × Int × Int × Int) : Int := p.1 * 86400 + p.2.1 * 3600 + p.2.2.1 * 60 + p.2.2.2

/-- **C81** (partial: up to 2^24 seconds, about 194 days; the total may be one second short, see
`C81_counterexample`).  The fields are in range, and denote the difference or one second less. -/
theorem C81_parts_partial (s : Int) (h0 : 0 ≤ s) (h1 : s ≤ 2 ^ 24) :
    let p := parts s
    0 ≤ p.1 ∧ (0 ≤ p.2.1 ∧ p.2.1 < 24) ∧ (0 ≤ p.2.2.1 ∧ p.2.2.1 < 60) ∧ (0 ≤ p.2.2.2 ∧ p.2.2.2 < 60) ∧
    (partsTotal p = s ∨ partsTotal p = s - 1) := by
  intro p
  have hsF : toF s = s := toF_eq (by rw [abs_of_nonneg h0]; exact h1)
  have hs0 : (0 : ℚ) ≤ s := by exact_mod_cast h0
  have hs1 : (s : ℚ) ≤ 2 ^ 24 := by exact_mod_cast h1
  have hq0 : (0 : ℚ) ≤ s / 86400 := by positivity
  have hqe := rnd32_err (v := s / 86400) 7 hq0 (by rw [div_lt_iff₀ (by norm_num)]; norm_num at hs1 ⊢; linarith) (by norm_num)
  have hq : quotient s = rnd binary32 (s / 86400) := by unfold quotient; rw [hsF]
  have hqf : IsFloat binary32 (quotient s) := by rw [hq]; exact rnd_isFloat _ _
  have hqn : 0 ≤ quotient s := by rw [hq]; exact rnd_nonneg _ hq0
  rw [← hq] at hqe
  obtain ⟨x1, x2, x3, x4⟩ := nextUnit_step hqf hqn 24 (Or.inl rfl)
  have hp : p = (trunc (quotient s), trunc (nextUnit (quotient s) 24), trunc (nextUnit (nextUnit (quotient s) 24) 60),
    trunc (nextUnit (nextUnit (nextUnit (quotient s) 24) 60) 60)) := rfl
  generalize nextUnit (quotient s) 24 = x at *
  obtain ⟨y1, y2, y3, y4⟩ := nextUnit_step x1 x2 60 (Or.inr rfl)
  generalize nextUnit x 60 = y at *
  obtain ⟨z1, z2, z3, z4⟩ := nextUnit_step y1 y2 60 (Or.inr rfl)
  generalize nextUnit y 60 = z at *
  generalize quotient s = q at *
  rw [hp]
  simp only [trunc_pos hqn, trunc_pos x2, trunc_pos y2, trunc_pos z2, partsTotal] at *
  have fl : ∀ {w : ℚ} {n : Int}, 0 ≤ w → w < n → 0 ≤ ⌊w⌋ ∧ ⌊w⌋ < n := fun a b => ⟨Int.floor_nonneg.2 a, Int.floor_lt.2 b⟩
  refine ⟨Int.floor_nonneg.2 hqn, fl x2 x3, fl y2 y3, fl z2 z3, ?_⟩
  have b1 := abs_le.1 hqe
  have b2 := abs_le.1 x4
  have b3 := abs_le.1 y4
  have b4 := abs_le.1 z4
  have c1 := Int.floor_le z
  have c2 := Int.lt_floor_add_one z
  push_cast at b2 b3 b4
  norm_num at b1 b2 b3 b4
  have f1 : Int.fract q = q - ⌊q⌋ := rfl
  have f2 : Int.fract x = x - ⌊x⌋ := rfl
  have f3 : Int.fract y = y - ⌊y⌋ := rfl
  rw [f1] at b2
  rw [f2] at b3
  rw [f3] at b4
  have k1 : ((⌊q⌋ * 86400 + ⌊x⌋ * 3600 + ⌊y⌋ * 60 + ⌊z⌋ : ℤ) : ℚ) < ((s + 1 : ℤ) : ℚ) := by push_cast; linarith [b1.1, b1.2, b2.1, b2.2, b3.1, b3.2, b4.1, b4.2]
  have k2 : ((s - 2 : ℤ) : ℚ) < ((⌊q⌋ * 86400 + ⌊x⌋ * 3600 + ⌊y⌋ * 60 + ⌊z⌋ : ℤ) : ℚ) := by push_cast; linarith [b1.1, b1.2, b2.1, b2.2, b3.1, b3.2, b4.1, b4.2]
  have k1' : ⌊q⌋ * 86400 + ⌊x⌋ * 3600 + ⌊y⌋ * 60 + ⌊z⌋ < s + 1 := by exact_mod_cast k1
  have k2' : s - 2 < ⌊q⌋ * 86400 + ⌊x⌋ * 3600 + ⌊y⌋ * 60 + ⌊z⌋ := by exact_mod_cast k2
  omega

theorem trunc_neg (x : ℚ) : trunc (-x) = -trunc x := by
  unfold trunc
  rcases lt_trichotomy x 0 with h | h | h
  · rw [if_pos (by linarith), if_neg (by linarith), Int.floor_neg]
  · subst h; simp
  · rw [if_neg (by linarith), if_pos h.le, Int.ceil_neg]

theorem toF_neg (n : Int) : toF (-n) = -toF n := by unfold toF; push_cast; exact rnd_neg _ _

theorem nextUnit_neg (x : ℚ) (n : Int) : nextUnit (-x) n = -nextUnit x n := by
  unfold nextUnit
  rw [trunc_neg, toF_neg, ← rnd_neg, ← neg_mul, ← rnd_neg]
  congr 3; ring

/-- **C81** Exchanging the two dates changes the sign of every field. -/
theorem C81_antisymmetric (s : Int) :
    parts (-s) = (-(parts s).1, -(parts s).2.1, -(parts s).2.2.1, -(parts s).2.2.2) := by
  have hq : quotient (-s) = -quotient s := by
    unfold quotient; rw [toF_neg, neg_div, rnd_neg]
  unfold parts
  simp only [hq, nextUnit_neg, trunc_neg]

/-- **C81** Whole days are exact, up to 24855 of them (68 years). -/
theorem C81_whole_days (D : Int) (h0 : 0 ≤ D) (h1 : D ≤ 24855) : parts (86400 * D) = (D, 0, 0, 0) := by
  have hs : toF (86400 * D) = ((86400 * D : Int) : ℚ) := by
    apply rnd_of_float
    refine ⟨675 * D, 7, ?_, by norm_num [binary32], ?_⟩
    · rw [abs_of_nonneg (by omega)]; simp only [binary32]; norm_num; omega
    · push_cast; ring
  have hq : quotient (86400 * D) = D := by
    unfold quotient
    rw [hs]
    have : (((86400 * D : Int) : ℚ) / 86400) = D := by push_cast; field_simp
    rw [this]
    exact rnd_of_float (int_float (by rw [abs_of_nonneg h0]; omega))
  have hu : ∀ n d : Int, 0 ≤ d → d ≤ 24855 → nextUnit (d : ℚ) n = 0 := by
    intro n d a b
    have : trunc (d : ℚ) = d := by rw [trunc_pos (by exact_mod_cast a), Int.floor_intCast]
    unfold nextUnit
    rw [this, toF_eq (by rw [abs_of_nonneg a]; omega), sub_self, rnd_zero, zero_mul, rnd_zero]
  have t : trunc (D : ℚ) = D := by rw [trunc_pos (by exact_mod_cast h0), Int.floor_intCast]
  have t0 : trunc 0 = 0 := by simp [trunc]
  have hz := hu 60 0 le_rfl (by omega)
  simp only [Int.cast_zero] at hz
  unfold parts
  simp only [hq, hu 24 D h0 h1, hz, t, t0]

/-- Evaluation of one rounding. -/
theorem rnd32_eval {x : ℚ} (k n : ℤ) (w : ℚ) (h1 : 2 ^ k ≤ x) (h2 : x < 2 ^ (k + 1)) (hk : -126 ≤ k)
    (hn : roundEven (x / 2 ^ (k - 23)) = n) (hw : (n : ℚ) * 2 ^ (k - 23) = w) : rnd binary32 x = w := by
  have hr := rnd_eval binary32 k n h1 h2 (by simp [binary32]; omega) (by simpa [binary32] using hn)
  rw [hr]; exact hw

theorem nextUnit_eval {x : ℚ} {n d : Int} (w : ℚ) (m e : ℤ) (hx : IsFloat binary32 x) (h0 : 0 ≤ x) (h1 : x < 2 ^ 24) (hd : ⌊x⌋ = d)
    (hw : (x - d) * n = w) (hm : |m| < 2 ^ 24) (he : -149 ≤ e) (hwm : w = m * 2 ^ e) : nextUnit x n = w := by
  have hf0 : 0 ≤ ⌊x⌋ := Int.floor_nonneg.2 h0
  have hf1 : ⌊x⌋ < 2 ^ 24 := by rw [Int.floor_lt]; exact_mod_cast h1
  unfold nextUnit
  rw [trunc_pos h0, toF_eq (by rw [abs_of_nonneg hf0]; omega), rnd_of_float (frac_float hx h0), hd, hw]
  exact rnd_of_float ⟨m, e, by simpa [binary32] using hm, he, hwm⟩

/-- **C81** (counterexample) Two moments one day and one second apart: the fields say one day. -/
theorem C81_counterexample : parts 86401 = (1, 0, 0, 0) := by
  have hq : quotient 86401 = 1 + 97 / 2 ^ 23 := by
    unfold quotient
    rw [toF_eq (by norm_num)]
    exact rnd32_eval 0 8388705 _ (by norm_num) (by norm_num) (by norm_num) (by apply roundEven_of <;> norm_num) (by norm_num)
  have f : ∀ m : ℤ, |m| < 2 ^ 24 → IsFloat binary32 ((m : ℚ) * 2 ^ (-23 : ℤ)) := fun m h =>
    ⟨m, -23, by simpa [binary32] using h, by norm_num [binary32], rfl⟩
  have f0 : IsFloat binary32 (1 + 97 / 2 ^ 23) := by have := f 8388705 (by norm_num); norm_num at this ⊢; exact this
  have f1 : IsFloat binary32 (2328 / 2 ^ 23) := by have := f 2328 (by norm_num); norm_num at this ⊢; exact this
  have f2 : IsFloat binary32 (139680 / 2 ^ 23) := by have := f 139680 (by norm_num); norm_num at this ⊢; exact this
  have g0 : ⌊(1 + 97 / 2 ^ 23 : ℚ)⌋ = 1 := by rw [Int.floor_eq_iff]; norm_num
  have g1 : ⌊(2328 / 2 ^ 23 : ℚ)⌋ = 0 := by rw [Int.floor_eq_iff]; norm_num
  have g2 : ⌊(139680 / 2 ^ 23 : ℚ)⌋ = 0 := by rw [Int.floor_eq_iff]; norm_num
  have g3 : ⌊(8380800 / 2 ^ 23 : ℚ)⌋ = 0 := by rw [Int.floor_eq_iff]; norm_num
  have e1 := nextUnit_eval (n := 24) (2328 / 2 ^ 23) 2328 (-23) f0 (by norm_num) (by norm_num) g0 (by norm_num) (by norm_num) (by norm_num) (by norm_num)
  have e2 := nextUnit_eval (n := 60) (139680 / 2 ^ 23) 139680 (-23) f1 (by norm_num) (by norm_num) g1 (by norm_num) (by norm_num) (by norm_num) (by norm_num)
  have e3 := nextUnit_eval (n := 60) (8380800 / 2 ^ 23) 8380800 (-23) f2 (by norm_num) (by norm_num) g2 (by norm_num) (by norm_num) (by norm_num) (by norm_num)
  unfold parts
  simp only [hq, e1, e2, e3]
  rw [trunc_pos (by norm_num), trunc_pos (by norm_num), trunc_pos (by norm_num), trunc_pos (by norm_num), g0, g1, g2, g3]

/-- **C81** (counterexample) For moments many years apart the fields are minutes off. -/
theorem C81_far_counterexample : parts 2764867710 = (32000, 18, 45, 0) ∧ partsTotal (32000, 18, 45, 0) = 2764867710 - 210 := by
  refine ⟨?_, by decide⟩
  have hs : toF 2764867710 = 2764867584 := by
    unfold toF
    exact rnd32_eval 31 10800264 _ (by norm_num) (by norm_num) (by norm_num) (by apply roundEven_of <;> norm_num) (by norm_num)
  have hq : quotient 2764867710 = 32000 + 25 / 32 := by
    unfold quotient
    rw [hs]
    exact rnd32_eval 14 16384400 _ (by norm_num) (by norm_num) (by norm_num) (by apply roundEven_of <;> norm_num) (by norm_num)
  have f : ∀ m : ℤ, |m| < 2 ^ 24 → IsFloat binary32 ((m : ℚ) * 2 ^ (-5 : ℤ)) := fun m h =>
    ⟨m, -5, by simpa [binary32] using h, by norm_num [binary32], rfl⟩
  have f0 : IsFloat binary32 (32000 + 25 / 32) := by have := f 1024025 (by norm_num); norm_num at this ⊢; exact this
  have f1 : IsFloat binary32 (75 / 4) := by have := f 600 (by norm_num); norm_num at this ⊢; exact this
  have f2 : IsFloat binary32 45 := by have := f 1440 (by norm_num); norm_num at this ⊢; exact this
  have g0 : ⌊(32000 + 25 / 32 : ℚ)⌋ = 32000 := by rw [Int.floor_eq_iff]; norm_num
  have g1 : ⌊(75 / 4 : ℚ)⌋ = 18 := by rw [Int.floor_eq_iff]; norm_num
  have g2 : ⌊(45 : ℚ)⌋ = 45 := by rw [Int.floor_eq_iff]; norm_num
  have e1 := nextUnit_eval (n := 24) (75 / 4) 75 (-2) f0 (by norm_num) (by norm_num) g0 (by norm_num) (by norm_num) (by norm_num) (by norm_num)
  have e2 := nextUnit_eval (n := 60) 45 45 0 f1 (by norm_num) (by norm_num) g1 (by norm_num) (by norm_num) (by norm_num) (by norm_num)
  have e3 := nextUnit_eval (n := 60) 0 0 0 f2 (by norm_num) (by norm_num) g2 (by norm_num) (by norm_num) (by norm_num) (by norm_num)
  unfold parts
  simp only [hq, e1, e2, e3]
  rw [trunc_pos (by norm_num), trunc_pos (by norm_num), trunc_pos (by norm_num), trunc_pos (by norm_num), g0, g1, g2]
  simp

/-- What the two roundings of the quotient cost. -/
theorem quotient_err {s : Int} (h0 : 0 ≤ s) : |quotient s * 86400 - s| ≤ s / 8388607 := by
  rcases h0.eq_or_lt with rfl | hp
  · simp [quotient, toF]
  have h1 : (1 : ℚ) ≤ s := by exact_mod_cast (show (1 : Int) ≤ s by omega)
  have a := rnd_rel (f := binary32) (x := (s : ℚ)) (by rw [abs_of_nonneg (by linarith)]; norm_num [binary32]; linarith)
  have ⟨a1, a2⟩ := rel_bounds (by linarith) a
  have hF : toF s = rnd binary32 s := rfl
  rw [← hF] at a1 a2
  norm_num [binary32] at a1 a2
  have hq1 : (1 / 2 : ℚ) ≤ toF s := by linarith
  have b := rnd_rel (f := binary32) (x := toF s / 86400) (by
    rw [abs_of_nonneg (by positivity), le_div_iff₀ (by norm_num)]
    norm_num [binary32]; linarith)
  have ⟨b1, b2⟩ := rel_bounds (by positivity) b
  have hQ : quotient s = rnd binary32 (toF s / 86400) := rfl
  rw [← hQ] at b1 b2
  norm_num [binary32] at b1 b2
  rw [abs_le]
  constructor <;> linarith

/-- **C81** (partial: the total is exact only up to an error) For every distance: the fields are in range, and the seconds that they denote differ from the distance by at most its 8388607th part
and a second. -/
theorem C81_error_partial (s : Int) (h0 : 0 ≤ s) :
    let p := parts s
    0 ≤ p.1 ∧ (0 ≤ p.2.1 ∧ p.2.1 < 24) ∧ (0 ≤ p.2.2.1 ∧ p.2.2.1 < 60) ∧ (0 ≤ p.2.2.2 ∧ p.2.2.2 < 60) ∧
    -((s : ℚ) / 8388607 + 101 / 100) < (partsTotal p : ℚ) - s ∧ (partsTotal p : ℚ) - s < s / 8388607 + 1 / 100 := by
  intro p
  have hs0 : (0 : ℚ) ≤ s := by exact_mod_cast h0
  have hqe := quotient_err h0
  have hqf : IsFloat binary32 (quotient s) := rnd_isFloat _ _
  have hqn : 0 ≤ quotient s := rnd_nonneg _ (div_nonneg (rnd_nonneg _ hs0) (by norm_num))
  obtain ⟨x1, x2, x3, x4⟩ := nextUnit_step hqf hqn 24 (Or.inl rfl)
  have hp : p = (trunc (quotient s), trunc (nextUnit (quotient s) 24), trunc (nextUnit (nextUnit (quotient s) 24) 60),
    trunc (nextUnit (nextUnit (nextUnit (quotient s) 24) 60) 60)) := rfl
  generalize nextUnit (quotient s) 24 = x at *
  obtain ⟨y1, y2, y3, y4⟩ := nextUnit_step x1 x2 60 (Or.inr rfl)
  generalize nextUnit x 60 = y at *
  obtain ⟨z1, z2, z3, z4⟩ := nextUnit_step y1 y2 60 (Or.inr rfl)
  generalize nextUnit y 60 = z at *
  generalize quotient s = q at *
  rw [hp]
  simp only [trunc_pos hqn, trunc_pos x2, trunc_pos y2, trunc_pos z2, partsTotal] at *
  have fl : ∀ {w : ℚ} {n : Int}, 0 ≤ w → w < n → 0 ≤ ⌊w⌋ ∧ ⌊w⌋ < n := fun a b => ⟨Int.floor_nonneg.2 a, Int.floor_lt.2 b⟩
  refine ⟨Int.floor_nonneg.2 hqn, fl x2 x3, fl y2 y3, fl z2 z3, ?_⟩
  have b1 := abs_le.1 hqe
  have b2 := abs_le.1 x4
  have b3 := abs_le.1 y4
  have b4 := abs_le.1 z4
  have c1 := Int.floor_le z
  have c2 := Int.lt_floor_add_one z
  push_cast at b2 b3 b4
  norm_num at b2 b3 b4
  have f1 : Int.fract q = q - ⌊q⌋ := rfl
  have f2 : Int.fract x = x - ⌊x⌋ := rfl
  have f3 : Int.fract y = y - ⌊y⌋ := rfl
  rw [f1] at b2
  rw [f2] at b3
  rw [f3] at b4
  push_cast
  constructor <;> linarith [b1.1, b1.2, b2.1, b2.2, b3.1, b3.2, b4.1, b4.2]

-- The distance of `C81_far_counterexample`: the bound is 331 seconds, the error 210.
example : (0 : Int) ≤ 2764867710 ∧ (2764867710 : ℚ) / 8388607 + 101 / 100 < 331 := by norm_num

/-- **C81 is false for dates that are 90 to 179 years apart**: the number of days does not fit into the field, which becomes negative. -/
theorem C81_days_negative (zn : Zone) {d e : VDT} {a b : Civil} (hd : Holds d a) (he : Holds e b) (ha : a.Valid) (hb : b.Valid) (ha0 : a.year ≠ 0) (hb0 : b.year ≠ 0)
    (h1 : b.secs + 32768 * 86400 ≤ a.secs) (h2 : a.secs ≤ b.secs + 65535 * 86400) : (DT.diff zn d e).mday < 0 := by
  have hs := C52_diff_exact zn hd he ha hb ha0 hb0
  generalize hg : diffSecs zn d e = s at hs
  have l1 : 32768 * 86400 ≤ s := by omega
  have l2 : s ≤ 65535 * 86400 := by omega
  have q1 : (32768 : ℚ) ≤ quotient s := by
    have e1 : IsFloat binary32 (2831155200 : ℚ) := ⟨675, 22, by norm_num [binary32], by norm_num [binary32], by norm_num⟩
    have e2 : IsFloat binary32 (32768 : ℚ) := ⟨1, 15, by norm_num [binary32], by norm_num [binary32], by norm_num⟩
    have a1 : (2831155200 : ℚ) ≤ toF s := by
      rw [← rnd_of_float e1]; exact rnd_mono _ (by exact_mod_cast (show (2831155200 : Int) ≤ s by omega))
    rw [← rnd_of_float e2]
    exact rnd_mono _ (by rw [le_div_iff₀ (by norm_num)]; linarith)
  have q2 : quotient s < 65536 := by
    have := (abs_le.1 (quotient_err (s := s) (by omega))).2
    have h3 : (s : ℚ) ≤ 5662224000 := by exact_mod_cast (show s ≤ (5662224000 : Int) by omega)
    linarith
  have t : trunc (quotient s) = ⌊quotient s⌋ := trunc_pos (by linarith)
  have f1 : 32768 ≤ ⌊quotient s⌋ := Int.le_floor.2 (by exact_mod_cast q1)
  have f2 : ⌊quotient s⌋ < 65536 := Int.floor_lt.2 (by exact_mod_cast q2)
  unfold DT.diff parts
  simp only [hg, t]
  unfold i16
  omega

-- The hypotheses: 1 January 2000 and 1 January 1900.
example : (⟨2000, 1, 1, 0, 0, 0⟩ : Civil).Valid ∧ (⟨1900, 1, 1, 0, 0, 0⟩ : Civil).Valid ∧
    (⟨1900, 1, 1, 0, 0, 0⟩ : Civil).secs + 32768 * 86400 ≤ (⟨2000, 1, 1, 0, 0, 0⟩ : Civil).secs ∧
    (⟨2000, 1, 1, 0, 0, 0⟩ : Civil).secs ≤ (⟨1900, 1, 1, 0, 0, 0⟩ : Civil).secs + 65535 * 86400 := by
  unfold Civil.Valid; decide +kernel

/-- **C81** (partial: dates at most 2^24 seconds apart) `vt_datetime_diff` gives no years and months, and adding it to the earlier date gives the later one, or
the second before it. -/
theorem C81_add_back_partial (off : Int) {d e : VDT} {a b c : Civil} (hd : Holds d a) (he : Holds e b) (ha : a.Valid) (hb : b.Valid) (hc : c.Valid)
    (ha0 : a.year ≠ 0) (hb0 : b.year ≠ 0) (hc0 : c.year ≠ 0)
    (h0 : b.secs ≤ a.secs) (h1 : a.secs ≤ b.secs + 2 ^ 24) (hy : Is16 a.year) (hcy : Is16 c.year) (hca : c.secs + 1 = a.secs) :
    DT.op off e (DT.diff off d e) = ⟨a.year, a.month, a.day, a.hour, a.minute, a.second, a.weekDay, a.yearDay⟩ ∨
    DT.op off e (DT.diff off d e) = ⟨c.year, c.month, c.day, c.hour, c.minute, c.second, c.weekDay, c.yearDay⟩ := by
  have hdiff := C52_diff_exact off hd he ha hb ha0 hb0
  obtain ⟨p1, p2, p3, p4, p5⟩ := C81_parts_partial (diffSecs off d e) (by omega) (by omega)
  generalize hp : parts (diffSecs off d e) = p at *
  have hs : diffSecs off d e ≤ 2 ^ 24 := by omega
  have e1 : (DT.diff off d e) = ⟨0, 0, p.1, p.2.1, p.2.2.1, p.2.2.2, 0, 0⟩ := by
    unfold DT.diff
    simp only [hp]
    have hd1 : p.1 ≤ 32767 := by
      unfold partsTotal at p5
      omega
    rw [i16_id ⟨by omega, by omega⟩, i16_id ⟨by omega, by omega⟩, i16_id ⟨by omega, by omega⟩, i16_id ⟨by omega, by omega⟩]
  rcases p5 with h | h
  · left
    exact C52_add_difference off hd ha ha0 hy _ (by rw [e1]; exact ⟨rfl, rfl⟩) (by rw [e1]; exact h)
  · right
    have hcd : Holds ⟨c.year, c.month, c.day, c.hour, c.minute, c.second, 0, 0⟩ c := ⟨rfl, rfl, rfl, rfl, rfl, rfl⟩
    have := C52_diff_exact off hcd he hc hb hc0 hb0
    exact C52_add_difference off hcd hc hc0 hcy _ (by rw [e1]; exact ⟨rfl, rfl⟩) (by rw [e1, this]; simp only; unfold partsTotal at h; omega)

-- The hypotheses: 2 March and 1 March 2001, at 00:00:01 and 00:00:00, and the second before the later one.
example : Holds ⟨2001, 3, 2, 0, 0, 1, 0, 0⟩ ⟨2001, 3, 2, 0, 0, 1⟩ ∧ (⟨2001, 3, 2, 0, 0, 1⟩ : Civil).Valid ∧ (⟨2001, 3, 2, 0, 0, 0⟩ : Civil).Valid ∧
    (⟨2001, 3, 2, 0, 0, 1⟩ : Civil).secs = (⟨2001, 3, 1, 0, 0, 0⟩ : Civil).secs + 86401 ∧
    (⟨2001, 3, 2, 0, 0, 0⟩ : Civil).secs + 1 = (⟨2001, 3, 2, 0, 0, 1⟩ : Civil).secs := by
  unfold Holds Civil.Valid; decide +kernel

-- With the fields of `C81_counterexample`, adding the difference back ends one second early.
example : DT.op 0 ⟨2001, 3, 1, 0, 0, 0, 0, 0⟩ (DT.diff 0 ⟨2001, 3, 2, 0, 0, 1, 0, 0⟩ ⟨2001, 3, 1, 0, 0, 0, 0, 0⟩) = ⟨2001, 3, 2, 0, 0, 0, 5, 61⟩ := by
  have h : diffSecs 0 ⟨2001, 3, 2, 0, 0, 1, 0, 0⟩ ⟨2001, 3, 1, 0, 0, 0, 0, 0⟩ = 86401 := by decide +kernel
  unfold DT.diff
  rw [h, C81_counterexample]
  decide +kernel

end Vita
