import Verif.Spec.Float
import Mathlib.Tactic.Linarith
import Mathlib.Tactic.NormNum
import Mathlib.Tactic.Ring
import Mathlib.Tactic.FieldSimp
import Mathlib.Tactic.Positivity
/-!
# Rounding
-/

namespace Vita.Spec

theorem roundEven_lb (x : ℚ) : ⌊x⌋ ≤ roundEven x := by
  unfold roundEven; split_ifs <;> omega

theorem roundEven_ub (x : ℚ) : roundEven x ≤ ⌊x⌋ + 1 := by
  unfold roundEven; split_ifs <;> omega

theorem roundEven_int (n : ℤ) : roundEven n = n := by
  unfold roundEven; simp

theorem roundEven_mono {x y : ℚ} (h : x ≤ y) : roundEven x ≤ roundEven y := by
  rcases lt_or_eq_of_le (Int.floor_le_floor h) with hf | hf
  · have := roundEven_ub x; have := roundEven_lb y; omega
  · unfold roundEven
    rw [hf]
    have h1 : x - (⌊y⌋ : ℚ) ≤ y - ⌊y⌋ := by linarith
    split_ifs <;> first | omega | (exfalso; linarith)

theorem roundEven_err (x : ℚ) : |(roundEven x : ℚ) - x| ≤ 1 / 2 := by
  have h1 := Int.floor_le x
  have h2 := Int.lt_floor_add_one x
  rw [abs_le]
  unfold roundEven
  split_ifs <;> push_cast <;> constructor <;> linarith

theorem roundEven_nonneg {x : ℚ} (h : 0 ≤ x) : 0 ≤ roundEven x := by
  have := roundEven_mono h
  rwa [show roundEven (0 : ℚ) = 0 from by simpa using roundEven_int 0] at this

theorem quantum_pos (f : Fmt) (x : ℚ) : 0 < quantum f x := by unfold quantum; exact zpow_pos (by norm_num) _

theorem quantum_eq (f : Fmt) {x : ℚ} {k : ℤ} (h1 : 2 ^ k ≤ x) (h2 : x < 2 ^ (k + 1)) : quantum f x = 2 ^ max (k - f.frac) f.emin := by
  have hx : 0 < x := lt_of_lt_of_le (zpow_pos (by norm_num) _) h1
  have : Int.log 2 x = k := by
    apply le_antisymm
    · have := (Int.lt_zpow_iff_log_lt (b := 2) (by norm_num) hx (x := k + 1)).1 (by exact_mod_cast h2)
      omega
    · exact (Int.zpow_le_iff_le_log (b := 2) (by norm_num) hx).1 (by exact_mod_cast h1)
  rw [quantum, this]

theorem rndPos_nonneg (f : Fmt) {x : ℚ} (h : 0 ≤ x) : 0 ≤ rndPos f x := by
  have h1 := quantum_pos f x
  have h2 : (0 : ℚ) ≤ roundEven (x / quantum f x) := by exact_mod_cast roundEven_nonneg (div_nonneg h h1.le)
  exact mul_nonneg h2 h1.le

@[simp] theorem rndPos_zero (f : Fmt) : rndPos f 0 = 0 := by
  unfold rndPos; rw [zero_div]
  rw [show roundEven (0 : ℚ) = 0 from by simpa using roundEven_int 0]; simp

@[simp] theorem rnd_zero (f : Fmt) : rnd f 0 = 0 := by simp [rnd]

theorem rnd_neg (f : Fmt) (x : ℚ) : rnd f (-x) = -rnd f x := by
  unfold rnd
  rcases lt_trichotomy x 0 with h | h | h
  · rw [if_pos (by linarith), if_neg (by linarith)]; simp
  · subst h; simp
  · rw [if_neg (by linarith), if_pos h.le]; simp

/-- Rounding to a multiple of the quantum does not cross a multiple of it. -/
theorem rndPos_le_of (f : Fmt) {x P : ℚ} {n : ℤ} (hP : P = n * quantum f x) (h : x ≤ P) : rndPos f x ≤ P := by
  have hq := quantum_pos f x
  have : x / quantum f x ≤ n := by rw [div_le_iff₀ hq, ← hP]; exact h
  have h2 := roundEven_mono this
  rw [roundEven_int] at h2
  rw [hP, rndPos]
  exact mul_le_mul_of_nonneg_right (by exact_mod_cast h2) hq.le

theorem le_rndPos_of (f : Fmt) {x P : ℚ} {n : ℤ} (hP : P = n * quantum f x) (h : P ≤ x) : P ≤ rndPos f x := by
  have hq := quantum_pos f x
  have : (n : ℚ) ≤ x / quantum f x := by rw [le_div_iff₀ hq, ← hP]; exact h
  have h2 := roundEven_mono this
  rw [roundEven_int] at h2
  rw [hP, rndPos]
  exact mul_le_mul_of_nonneg_right (by exact_mod_cast h2) hq.le

theorem zpow_mul_int {a b : ℤ} (h : b ≤ a) : ∃ n : ℤ, (2 : ℚ) ^ a = n * 2 ^ b := by
  refine ⟨2 ^ (a - b).toNat, ?_⟩
  push_cast
  rw [← zpow_natCast, ← zpow_add₀ (by norm_num)]
  congr 1
  omega

theorem zpow_le_self {x : ℚ} (h : 0 < x) : (2 : ℚ) ^ Int.log 2 x ≤ x := by
  have := Int.zpow_log_le_self (b := 2) (by norm_num) h
  exact_mod_cast this

theorem lt_zpow_self (x : ℚ) : x < (2 : ℚ) ^ (Int.log 2 x + 1) := by
  have := Int.lt_zpow_succ_log_self (b := 2) (by norm_num) x
  exact_mod_cast this

theorem rndPos_mono (f : Fmt) {x y : ℚ} (h0 : 0 ≤ x) (h : x ≤ y) : rndPos f x ≤ rndPos f y := by
  rcases h0.eq_or_lt with h0 | h0
  · subst h0; rw [rndPos_zero]; exact rndPos_nonneg f h
  have hy : 0 < y := lt_of_lt_of_le h0 h
  have hl := Int.log_mono_right (b := 2) h0 h
  rcases eq_or_lt_of_le (show max (Int.log 2 x - f.frac) f.emin ≤ max (Int.log 2 y - f.frac) f.emin by omega) with he | he
  · have hq : quantum f x = quantum f y := by unfold quantum; rw [he]
    have hp := quantum_pos f y
    unfold rndPos
    rw [hq]
    refine mul_le_mul_of_nonneg_right ?_ hp.le
    exact_mod_cast roundEven_mono (div_le_div_of_nonneg_right h hp.le)
  · have hk : max (Int.log 2 y - f.frac) f.emin = Int.log 2 y - f.frac := by omega
    have hlt : Int.log 2 x < Int.log 2 y := by omega
    have hxP : x ≤ (2 : ℚ) ^ Int.log 2 y :=
      (lt_zpow_self x).le.trans (zpow_le_zpow_right₀ (by norm_num) (by omega))
    obtain ⟨n, hn⟩ := zpow_mul_int (a := Int.log 2 y) (b := max (Int.log 2 x - f.frac) f.emin) (by omega)
    obtain ⟨m, hm⟩ := zpow_mul_int (a := Int.log 2 y) (b := max (Int.log 2 y - f.frac) f.emin) (by omega)
    exact (rndPos_le_of f (P := 2 ^ Int.log 2 y) (n := n) hn hxP).trans (le_rndPos_of f (P := 2 ^ Int.log 2 y) (n := m) hm (zpow_le_self hy))

/-- Rounding is monotone. -/
theorem rnd_mono (f : Fmt) {x y : ℚ} (h : x ≤ y) : rnd f x ≤ rnd f y := by
  unfold rnd
  by_cases hx : 0 ≤ x
  · rw [if_pos hx, if_pos (hx.trans h)]; exact rndPos_mono f hx h
  · rw [if_neg hx]
    by_cases hy : 0 ≤ y
    · rw [if_pos hy]
      have h1 := rndPos_nonneg f (x := -x) (by linarith)
      have h2 := rndPos_nonneg f hy
      linarith
    · rw [if_neg hy]
      have := rndPos_mono f (x := -y) (y := -x) (by linarith) (by linarith)
      linarith

theorem rnd_nonneg (f : Fmt) {x : ℚ} (h : 0 ≤ x) : 0 ≤ rnd f x := by rw [← rnd_zero f]; exact rnd_mono f h

theorem rnd_abs (f : Fmt) (x : ℚ) : rnd f |x| = |rnd f x| := by
  rcases le_total 0 x with h | h
  · rw [abs_of_nonneg h, abs_of_nonneg (rnd_nonneg f h)]
  · rw [abs_of_nonpos h, rnd_neg, abs_of_nonpos]
    rw [← rnd_zero f]; exact rnd_mono f h

theorem isFloat_neg {f : Fmt} {x : ℚ} (h : IsFloat f x) : IsFloat f (-x) := by
  obtain ⟨m, e, h1, h2, h3⟩ := h
  exact ⟨-m, e, by rwa [abs_neg], h2, by rw [h3]; push_cast; ring⟩

theorem isFloat_zero (f : Fmt) : IsFloat f 0 := ⟨0, f.emin, by simp, le_refl _, by simp⟩

theorem rndPos_of_float {f : Fmt} {x : ℚ} (h0 : 0 ≤ x) (h : IsFloat f x) : rndPos f x = x := by
  rcases h0.eq_or_lt with h0 | h0
  · subst h0; exact rndPos_zero f
  obtain ⟨m, e, h1, h2, h3⟩ := h
  have hm : 0 < m := by
    by_contra hc
    have : (m : ℚ) ≤ 0 := by exact_mod_cast not_lt.1 hc
    have he : (0 : ℚ) < 2 ^ e := zpow_pos (by norm_num) _
    have := mul_nonpos_of_nonpos_of_nonneg this he.le
    rw [← h3] at this; linarith
  rw [abs_of_pos hm] at h1
  have hlog : Int.log 2 x < e + f.frac + 1 := by
    rw [← Int.lt_zpow_iff_log_lt (b := 2) (by norm_num) h0, h3]
    push_cast
    rw [show e + (f.frac : ℤ) + 1 = ((f.frac + 1 : ℕ) : ℤ) + e by push_cast; ring, zpow_add₀ (by norm_num), zpow_natCast]
    refine mul_lt_mul_of_pos_right ?_ (zpow_pos (by norm_num) _)
    exact_mod_cast h1
  obtain ⟨n, hn⟩ := zpow_mul_int (a := e) (b := max (Int.log 2 x - f.frac) f.emin) (by omega)
  have hx : x = (m * n : ℤ) * quantum f x := by
    conv_lhs => rw [h3, hn]
    unfold quantum; push_cast; ring
  exact le_antisymm (rndPos_le_of f hx le_rfl) (le_rndPos_of f hx le_rfl)

/-- Rounding keeps the numbers of the format. -/
theorem rnd_of_float {f : Fmt} {x : ℚ} (h : IsFloat f x) : rnd f x = x := by
  unfold rnd
  split
  · exact rndPos_of_float ‹_› h
  · rw [rndPos_of_float (by linarith) (isFloat_neg h)]; ring

theorem isFloat_int_mul {f : Fmt} {n k : ℤ} (hn : |n| ≤ 2 ^ (f.frac + 1)) (hk : f.emin ≤ k) : IsFloat f (n * 2 ^ k) := by
  rcases lt_or_eq_of_le hn with h | h
  · exact ⟨n, k, h, hk, rfl⟩
  · have h2 : n = 2 ^ (f.frac + 1) ∨ n = -2 ^ (f.frac + 1) := by
      rcases abs_choice n with hc | hc <;> rw [hc] at h <;> omega
    rcases h2 with h2 | h2
    · refine ⟨2 ^ f.frac, k + 1, ?_, by omega, ?_⟩
      · rw [abs_of_pos (by positivity), pow_succ]; have : (0 : ℤ) < 2 ^ f.frac := by positivity
        omega
      · rw [h2, zpow_add₀ (by norm_num)]; push_cast; ring
    · refine ⟨-2 ^ f.frac, k + 1, ?_, by omega, ?_⟩
      · rw [abs_neg, abs_of_pos (by positivity), pow_succ]; have : (0 : ℤ) < 2 ^ f.frac := by positivity
        omega
      · rw [h2, zpow_add₀ (by norm_num)]; push_cast; ring

theorem rndPos_isFloat (f : Fmt) {x : ℚ} (h0 : 0 ≤ x) : IsFloat f (rndPos f x) := by
  rcases h0.eq_or_lt with h0 | h0
  · subst h0; rw [rndPos_zero]; exact isFloat_zero f
  unfold rndPos
  refine isFloat_int_mul ?_ (le_max_right _ _)
  rw [abs_of_nonneg (roundEven_nonneg (div_nonneg h0.le (quantum_pos f x).le))]
  have hle : x / quantum f x ≤ ((2 ^ (f.frac + 1) : ℤ) : ℚ) := by
    rw [div_le_iff₀ (quantum_pos f x)]
    refine (lt_zpow_self x).le.trans ?_
    unfold quantum
    push_cast
    rw [← zpow_natCast, ← zpow_add₀ (by norm_num)]
    refine zpow_le_zpow_right₀ (by norm_num) ?_
    push_cast
    omega
  have := roundEven_mono hle
  rwa [roundEven_int] at this

/-- Rounding gives a number of the format. -/
theorem rnd_isFloat (f : Fmt) (x : ℚ) : IsFloat f (rnd f x) := by
  unfold rnd
  split
  · exact rndPos_isFloat f ‹_›
  · exact isFloat_neg (rndPos_isFloat f (by linarith))

/-- Rounding errs by at most half a quantum. -/
theorem rnd_err (f : Fmt) (x : ℚ) : |rnd f x - x| ≤ quantum f |x| / 2 := by
  have key : ∀ y : ℚ, |rndPos f y - y| ≤ quantum f y / 2 := by
    intro y
    have hq := quantum_pos f y
    have : rndPos f y - y = (roundEven (y / quantum f y) - y / quantum f y) * quantum f y := by
      unfold rndPos; field_simp
    rw [this, abs_mul, abs_of_pos hq]
    have := mul_le_mul_of_nonneg_right (roundEven_err (y / quantum f y)) hq.le
    linarith
  unfold rnd
  split
  · rename_i h; rw [abs_of_nonneg h]; exact key x
  · rename_i h
    rw [abs_of_neg (a := x) (by linarith)]
    have := key (-x)
    rwa [show -rndPos f (-x) - x = -(rndPos f (-x) - -x) by ring, abs_neg]

theorem roundEven_nearest (x : ℚ) (n : ℤ) : |(roundEven x : ℚ) - x| ≤ |(n : ℚ) - x| := by
  have h1 := Int.floor_le x
  have h2 := Int.lt_floor_add_one x
  rcases le_or_gt n ⌊x⌋ with h | h
  · have h' : (n : ℚ) ≤ ⌊x⌋ := by exact_mod_cast h
    rw [abs_of_nonpos (a := (n : ℚ) - x) (by linarith), abs_le]
    unfold roundEven
    split_ifs <;> push_cast <;> constructor <;> linarith
  · have h' : (⌊x⌋ : ℚ) + 1 ≤ n := by exact_mod_cast h
    rw [abs_of_nonneg (a := (n : ℚ) - x) (by linarith), abs_le]
    unfold roundEven
    split_ifs <;> push_cast <;> constructor <;> linarith

theorem rndPos_nearest_mul (f : Fmt) (x : ℚ) (n : ℤ) : |rndPos f x - x| ≤ |n * quantum f x - x| := by
  have hq := quantum_pos f x
  have e1 : rndPos f x - x = (roundEven (x / quantum f x) - x / quantum f x) * quantum f x := by unfold rndPos; field_simp
  have e2 : n * quantum f x - x = (n - x / quantum f x) * quantum f x := by field_simp
  rw [e1, e2, abs_mul, abs_mul]
  exact mul_le_mul_of_nonneg_right (roundEven_nearest _ _) (abs_nonneg _)

theorem rndPos_nearest {f : Fmt} {x y : ℚ} (hx : 0 < x) (hy : IsFloat f y) : |rndPos f x - x| ≤ |y - x| := by
  obtain ⟨m, e, h1, h2, h3⟩ := hy
  by_cases hmul : max (Int.log 2 x - f.frac) f.emin ≤ e
  · obtain ⟨n, hn⟩ := zpow_mul_int hmul
    have := rndPos_nearest_mul f x (m * n)
    rwa [show ((m * n : ℤ) : ℚ) * quantum f x = y by rw [h3, hn, quantum]; push_cast; ring] at this
  · have he : e + f.frac + 1 ≤ Int.log 2 x := by omega
    have hy1 : y ≤ (2 : ℚ) ^ Int.log 2 x := by
      rw [h3]
      have : (m : ℚ) ≤ 2 ^ (f.frac + 1) := by
        have := (le_abs_self m).trans h1.le
        exact_mod_cast this
      refine (mul_le_mul_of_nonneg_right this (zpow_pos (by norm_num) e).le).trans ?_
      rw [← zpow_natCast, ← zpow_add₀ (by norm_num)]
      exact zpow_le_zpow_right₀ (by norm_num) (by push_cast; omega)
    have hx1 := zpow_le_self hx
    obtain ⟨n, hn⟩ := zpow_mul_int (a := Int.log 2 x) (b := max (Int.log 2 x - f.frac) f.emin) (by omega)
    have := rndPos_nearest_mul f x n
    rw [show (n : ℚ) * quantum f x = 2 ^ Int.log 2 x from hn.symm] at this
    refine this.trans ?_
    rw [abs_of_nonpos (by linarith), abs_of_nonpos (by linarith)]
    linarith

/-- Rounding is to nearest: no number of the format is closer. -/
theorem rnd_nearest {f : Fmt} {x y : ℚ} (hy : IsFloat f y) : |rnd f x - x| ≤ |y - x| := by
  rcases lt_trichotomy x 0 with h | h | h
  · have := rndPos_nearest (x := -x) (by linarith) (isFloat_neg hy)
    unfold rnd
    rw [if_neg (by linarith), show -rndPos f (-x) - x = -(rndPos f (-x) - -x) by ring, abs_neg,
      show y - x = -(-y - -x) by ring, abs_neg]
    exact this
  · subst h; simp
  · unfold rnd
    rw [if_pos h.le]
    exact rndPos_nearest h hy

/-- For numbers that are not too small, the relative error is at most `2 ^ -(frac + 1)`. -/
theorem rnd_rel {f : Fmt} {x : ℚ} (h : (2 : ℚ) ^ (f.emin + f.frac) ≤ |x|) : |rnd f x - x| ≤ |x| / 2 ^ (f.frac + 1) := by
  have hx : 0 < |x| := lt_of_lt_of_le (zpow_pos (by norm_num) _) h
  have hl : f.emin + f.frac ≤ Int.log 2 |x| := (Int.zpow_le_iff_le_log (b := 2) (by norm_num) hx).1 (by exact_mod_cast h)
  refine (rnd_err f x).trans ?_
  have : quantum f |x| = 2 ^ Int.log 2 |x| / 2 ^ f.frac := by
    unfold quantum
    rw [max_eq_left (by omega), zpow_sub₀ (by norm_num), zpow_natCast]
  rw [this, pow_succ, div_div]
  exact div_le_div_of_nonneg_right (zpow_le_self hx) (by positivity)

/-- Rounding of a number between two powers of two. -/
theorem rnd_eval (f : Fmt) {x : ℚ} (k : ℤ) (n : ℤ) (h1 : 2 ^ k ≤ x) (h2 : x < 2 ^ (k + 1)) (hk : f.emin ≤ k - f.frac)
    (h3 : roundEven (x / 2 ^ (k - f.frac)) = n) : rnd f x = n * 2 ^ (k - f.frac) := by
  have hx : 0 < x := lt_of_lt_of_le (zpow_pos (by norm_num) _) h1
  have hq := quantum_eq f h1 h2
  rw [max_eq_left hk] at hq
  unfold rnd rndPos
  rw [if_pos hx.le, hq, h3]

end Vita.Spec
