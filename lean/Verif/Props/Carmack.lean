import Verif.Props.MathFloat
/-!
# The fast square roots (C78)
-/

namespace Vita
open Spec Math

/-- An operation whose exact result is in the normal range and not near the largest number. -/
theorem fl32_rel {z : ℚ} (h1 : (2 : ℚ) ^ (-126 : ℤ) ≤ z) (h2 : z ≤ 2 ^ (127 : ℤ)) :
    ∃ w, fl binary32 z = some w ∧ |w - z| ≤ z / 2 ^ 24 := by
  have h0 : 0 < z := lt_of_lt_of_le (zpow_pos (by norm_num) _) h1
  have hr := rnd_rel (f := binary32) (x := z) (by rw [abs_of_pos h0]; exact h1)
  rw [abs_of_pos h0, show binary32.frac + 1 = 24 from rfl] at hr
  refine ⟨_, ?_, hr⟩
  unfold fl
  rw [if_pos]
  have h3 := (abs_le.1 hr).2
  rw [abs_of_nonneg (rnd_nonneg _ h0.le)]
  have : (2 : ℚ) ^ binary32.emax = 2 * 2 ^ (127 : ℤ) := by norm_num [binary32]
  rw [this]
  have : z / 2 ^ 24 ≤ z / 2 := div_le_div_of_nonneg_left h0.le (by norm_num) (by norm_num)
  have : (0 : ℚ) < 2 ^ (127 : ℤ) := zpow_pos (by norm_num) _
  linarith

/-- Halving a normal number. -/
theorem fl32_half {v : ℚ} (h1 : (2 : ℚ) ^ (-126 : ℤ) ≤ v) (h2 : v < 2 ^ (128 : ℤ)) :
    ∃ w, fl binary32 (v * (1 / 2)) = some w ∧ |w - v / 2| ≤ v / 2 / 2 ^ 23 := by
  have h0 : 0 < v := lt_of_lt_of_le (zpow_pos (by norm_num) _) h1
  have e : v * (1 / 2) = v / 2 := by ring
  rw [e]
  rcases le_or_gt ((2 : ℚ) ^ (-126 : ℤ)) (v / 2) with h | h
  · obtain ⟨w, hw, hb⟩ := fl32_rel h (by
      have : (2 : ℚ) ^ (128 : ℤ) = 2 * 2 ^ (127 : ℤ) := by norm_num
      linarith)
    refine ⟨w, hw, hb.trans ?_⟩
    apply div_le_div_of_nonneg_left <;> [positivity; positivity; norm_num]
  · have hk1 : (2 : ℚ) ^ (-127 : ℤ) ≤ v / 2 := by
      rw [show (2 : ℚ) ^ (-126 : ℤ) = 2 ^ (-127 : ℤ) * 2 by norm_num] at h1
      rwa [le_div_iff₀ (by norm_num)]
    have hq := quantum_eq binary32 (x := v / 2) (k := -127) hk1 (by norm_num at h ⊢; exact h)
    have hr := rnd_err binary32 (v / 2)
    rw [abs_of_pos (show 0 < v / 2 by linarith), hq, show max ((-127 : ℤ) - (binary32.frac : ℤ)) binary32.emin = -149 by decide] at hr
    refine ⟨rnd binary32 (v / 2), ?_, hr.trans ?_⟩
    · unfold fl
      rw [if_pos]
      have := (abs_le.1 hr).2
      rw [abs_of_nonneg (rnd_nonneg _ (by linarith))]
      have h3 : (2 : ℚ) ^ (-149 : ℤ) ≤ 1 := by norm_num
      have h4 : (2 : ℚ) ^ (-126 : ℤ) ≤ 1 := by norm_num
      have h5 : (2 : ℚ) ≤ 2 ^ binary32.emax := by norm_num [binary32]
      linarith
    · have : (2 : ℚ) ^ (-127 : ℤ) / 2 ^ 23 = 2 ^ (-149 : ℤ) / 2 := by norm_num
      rw [← this]
      exact div_le_div_of_nonneg_right hk1 (by norm_num)

/-- The rational arithmetic of a step: `P = y² v`, `b` near `P / 2`, `c` near `3/2 - b`, `y'` near `y c`. -/
theorem step_arith {P b c s e : ℚ} (he : e = 1 / 2 ^ 24) (h1 : 9 / 10 ≤ P) (h2 : P ≤ 11 / 10) (hb : |b - P / 2| ≤ 3 * e) (hc : |c - (3 / 2 - b)| ≤ (3 / 2 - b) * e)
    (hs : |s - c| ≤ c * e) : |P * s ^ 2 - P * (3 - P) ^ 2 / 4| ≤ 17 * e := by
  have he0 : 0 < e := by rw [he]; norm_num
  have he1 : e < 1 / 1000000 := by rw [he]; norm_num
  rw [abs_le] at hb hc hs
  obtain ⟨g, hg⟩ : ∃ g, g = (3 - P) / 2 := ⟨_, rfl⟩
  have hg1 : g ≤ 21 / 20 := by rw [hg]; linarith
  have hg0 : 19 / 20 ≤ g := by rw [hg]; linarith
  have k1 : |c - g| ≤ 5 * e := by
    have : (3 / 2 - b) * e ≤ 2 * e := mul_le_mul_of_nonneg_right (by linarith [hb.1]) he0.le
    rw [abs_le, hg]; constructor <;> linarith [hb.1, hb.2, hc.1, hc.2]
  rw [abs_le] at k1
  have k2 : |s - g| ≤ 7 * e := by
    have : c * e ≤ 2 * e := mul_le_mul_of_nonneg_right (by linarith [k1.2]) he0.le
    rw [abs_le]; constructor <;> linarith [hs.1, hs.2, k1.1, k1.2]
  have e1 : P * s ^ 2 - P * (3 - P) ^ 2 / 4 = P * (s - g) * (s + g) := by rw [hg]; ring
  have k3 := abs_le.1 k2
  have k4 : |s + g| ≤ 211 / 100 := by rw [abs_le]; constructor <;> linarith
  rw [e1, abs_mul, abs_mul, abs_of_nonneg (show 0 ≤ P by linarith)]
  calc P * |s - g| * |s + g| ≤ (11 / 10 * (7 * e)) * (211 / 100) :=
        mul_le_mul (mul_le_mul h2 k2 (abs_nonneg _) (by norm_num)) k4 (abs_nonneg _) (by positivity)
    _ ≤ 17 * e := by linarith

/-- The product `v * 0.5 * y * y` with its roundings. -/
theorem prod_arith {v y h a b e : ℚ} (he : e = 1 / 2 ^ 24) (hv : 0 < v) (hy : 0 < y) (h2 : y ^ 2 * v ≤ 11 / 10) (hh : v / 2 * (1 - 2 * e) ≤ h ∧ h ≤ v / 2 * (1 + 2 * e))
    (ha : h * y * (1 - e) ≤ a ∧ a ≤ h * y * (1 + e)) (hb : a * y * (1 - e) ≤ b ∧ b ≤ a * y * (1 + e)) : |b - y ^ 2 * v / 2| ≤ 3 * e := by
  have he0 : 0 < e := by rw [he]; norm_num
  have he1 : e < 1 / 1000000 := by rw [he]; norm_num
  have u1 : h * y * (1 + e) ≤ v / 2 * (1 + 2 * e) * y * (1 + e) := mul_le_mul_of_nonneg_right (mul_le_mul_of_nonneg_right hh.2 hy.le) (by linarith)
  have u2 := mul_le_mul_of_nonneg_right (mul_le_mul_of_nonneg_right (ha.2.trans u1) hy.le) (show 0 ≤ 1 + e by linarith)
  have l1 : v / 2 * (1 - 2 * e) * y * (1 - e) ≤ h * y * (1 - e) := mul_le_mul_of_nonneg_right (mul_le_mul_of_nonneg_right hh.1 hy.le) (by linarith)
  have l2 := mul_le_mul_of_nonneg_right (mul_le_mul_of_nonneg_right (l1.trans ha.1) hy.le) (show 0 ≤ 1 - e by linarith)
  obtain ⟨P, hP⟩ : ∃ P, P = y ^ 2 * v := ⟨_, rfl⟩
  have hP0 : 0 < P := by rw [hP]; positivity
  rw [← hP] at h2 ⊢
  have u3 : b ≤ P / 2 * ((1 + 2 * e) * (1 + e) ^ 2) := by rw [hP]; linarith [hb.2.trans u2]
  have l3 : P / 2 * ((1 - 2 * e) * (1 - e) ^ 2) ≤ b := by rw [hP]; linarith [l2.trans hb.1]
  have e2 : e ^ 2 ≤ e / 1000 := by nlinarith
  have e3 : e ^ 3 ≤ e / 1000 := by nlinarith
  have e4 := pow_pos he0 2
  have e5 := pow_pos he0 3
  have u4 : (1 + 2 * e) * (1 + e) ^ 2 ≤ 1 + 5 * e := by
    have : (1 + 2 * e) * (1 + e) ^ 2 = 1 + 4 * e + 5 * e ^ 2 + 2 * e ^ 3 := by ring
    linarith
  have l4 : 1 - 5 * e ≤ (1 - 2 * e) * (1 - e) ^ 2 := by
    have : (1 - 2 * e) * (1 - e) ^ 2 = 1 - 4 * e + 5 * e ^ 2 - 2 * e ^ 3 := by ring
    linarith
  have u5 := mul_le_mul_of_nonneg_left u4 (show 0 ≤ P / 2 by linarith)
  have l5 := mul_le_mul_of_nonneg_left l4 (show 0 ≤ P / 2 by linarith)
  have w := mul_le_mul_of_nonneg_right h2 he0.le
  rw [abs_le]
  constructor <;> linarith

theorem le_of_sq {x y : ℚ} (hy : 0 ≤ y) (h : x ^ 2 ≤ y ^ 2) : x ≤ y := by nlinarith

theorem rel24 {z w : ℚ} (h : |w - z| ≤ z / 2 ^ 24) : z * (1 - 1 / 2 ^ 24) ≤ w ∧ w ≤ z * (1 + 1 / 2 ^ 24) := by
  have e : z / 2 ^ 24 = z * (1 / 2 ^ 24) := by ring
  rw [e, abs_le] at h
  constructor <;> linarith

/-- One step of Newton's iteration. -/
theorem newton_ok {v y : ℚ} (hv1 : (2 : ℚ) ^ (-126 : ℤ) ≤ v) (hv2 : v < 2 ^ (128 : ℤ)) (hy : 0 < y) (h1 : 9 / 10 ≤ y ^ 2 * v) (h2 : y ^ 2 * v ≤ 11 / 10) :
    ∃ y', newton v y = some y' ∧ 0 < y' ∧ |y' ^ 2 * v - y ^ 2 * v * (3 - y ^ 2 * v) ^ 2 / 4| ≤ 17 / 2 ^ 24 := by
  have hv0 : 0 < v := lt_of_lt_of_le (zpow_pos (by norm_num) _) hv1
  -- the ranges of `y` and `v y`
  have y1 : (2 : ℚ) ^ (-65 : ℤ) ≤ y := by
    refine le_of_sq hy.le ?_
    have a1 : y ^ 2 * v ≤ y ^ 2 * 2 ^ (128 : ℤ) := mul_le_mul_of_nonneg_left hv2.le (by positivity)
    have a2 : 9 / 10 ≤ y ^ 2 * 2 ^ (128 : ℤ) := h1.trans a1
    norm_num at a2 ⊢
    linarith
  have y2 : y ≤ (2 : ℚ) ^ (64 : ℤ) := by
    refine le_of_sq (by positivity) ?_
    have a1 : y ^ 2 * 2 ^ (-126 : ℤ) ≤ y ^ 2 * v := mul_le_mul_of_nonneg_left hv1 (by positivity)
    have a2 := a1.trans h2
    norm_num at a2 ⊢
    linarith
  have w0 : 0 < v * y := by positivity
  have ew : (v * y) ^ 2 = (y ^ 2 * v) * v := by ring
  have w1 : (2 : ℚ) ^ (-64 : ℤ) ≤ v * y := by
    refine le_of_sq w0.le ?_
    rw [ew]
    have a1 := mul_le_mul h1 hv1 (by positivity) (by linarith)
    norm_num at a1 ⊢
    linarith
  have w2 : v * y ≤ (2 : ℚ) ^ (65 : ℤ) := by
    refine le_of_sq (by positivity) ?_
    rw [ew]
    have a1 := mul_le_mul h2 hv2.le hv0.le (by norm_num)
    norm_num at a1 ⊢
    linarith
  obtain ⟨h, eh, bh⟩ := fl32_half hv1 hv2
  have hh : v / 2 * (1 - 2 * (1 / 2 ^ 24)) ≤ h ∧ h ≤ v / 2 * (1 + 2 * (1 / 2 ^ 24)) := by
    have e : v / 2 / 2 ^ 23 = v / 2 * (2 * (1 / 2 ^ 24)) := by ring
    rw [e, abs_le] at bh
    constructor <;> linarith
  have hy1 := mul_le_mul_of_nonneg_right hh.1 hy.le
  have hy2 := mul_le_mul_of_nonneg_right hh.2 hy.le
  obtain ⟨a, ea, ba⟩ := fl32_rel (z := h * y) (by
      refine le_trans ?_ hy1
      have a1 : (2 : ℚ) ^ (-126 : ℤ) ≤ 2 ^ (-64 : ℤ) / 4 := by norm_num
      refine a1.trans ?_
      norm_num at w1 ⊢
      linarith) (by
      refine hy2.trans ?_
      have a1 : (2 : ℚ) ^ (65 : ℤ) * 2 ≤ 2 ^ (127 : ℤ) := by norm_num
      refine le_trans ?_ a1
      norm_num at w2 ⊢
      linarith)
  have ha := rel24 ba
  have a0 : 0 < a := by
    have : 0 < h * y := lt_of_lt_of_le (by positivity) hy1
    refine lt_of_lt_of_le ?_ ha.1
    exact mul_pos this (by norm_num)
  -- the product is near `P / 2`
  have ap : a * y ≤ 1 ∧ 1 / 4 ≤ a * y := by
    have t1 := mul_le_mul_of_nonneg_right (ha.2.trans (mul_le_mul_of_nonneg_right hy2 (by norm_num))) hy.le
    have t2 := mul_le_mul_of_nonneg_right ((mul_le_mul_of_nonneg_right hy1 (by norm_num)).trans ha.1) hy.le
    constructor
    · refine t1.trans ?_
      have : v / 2 * (1 + 2 * (1 / 2 ^ 24)) * y * (1 + 1 / 2 ^ 24) * y = y ^ 2 * v * ((1 + 2 * (1 / 2 ^ 24)) * (1 + 1 / 2 ^ 24) / 2) := by ring
      rw [this]
      norm_num
      linarith
    · refine le_trans ?_ t2
      have : v / 2 * (1 - 2 * (1 / 2 ^ 24)) * y * (1 - 1 / 2 ^ 24) * y = y ^ 2 * v * ((1 - 2 * (1 / 2 ^ 24)) * (1 - 1 / 2 ^ 24) / 2) := by ring
      rw [this]
      norm_num
      linarith
  obtain ⟨b, eb, bb⟩ := fl32_rel (z := a * y) (le_trans (by norm_num) ap.2) (le_trans ap.1 (by norm_num))
  have hb := prod_arith rfl hv0 hy h2 hh ha (rel24 bb)
  have hb' := abs_le.1 hb
  have c0 : 9 / 10 ≤ 3 / 2 - b ∧ 3 / 2 - b ≤ 11 / 10 := by
    norm_num at hb' ⊢
    constructor <;> linarith [hb'.1, hb'.2]
  obtain ⟨c, ec, bc⟩ := fl32_rel (z := 3 / 2 - b) (le_trans (by norm_num) c0.1) (le_trans c0.2 (by norm_num))
  have hc := rel24 bc
  have c1 : 1 / 2 ≤ c ∧ c ≤ 2 := by
    norm_num at hc ⊢
    constructor <;> linarith [hc.1, hc.2, c0.1, c0.2]
  have yc1 : (2 : ℚ) ^ (-66 : ℤ) ≤ y * c := by
    have := mul_le_mul y1 c1.1 (by norm_num) hy.le
    norm_num at this ⊢
    linarith
  have yc2 : y * c ≤ 2 ^ (65 : ℤ) := by
    have := mul_le_mul y2 c1.2 (by linarith) (by positivity)
    norm_num at this ⊢
    linarith
  obtain ⟨y', ey, by'⟩ := fl32_rel (z := y * c) (le_trans (by norm_num) yc1) (le_trans yc2 (by norm_num))
  have y0' : 0 < y' := lt_of_lt_of_le (mul_pos (lt_of_lt_of_le (by positivity) yc1) (by norm_num)) (rel24 by').1
  refine ⟨y', ?_, y0', ?_⟩
  · unfold newton
    rw [eh]; simp only [Option.bind_eq_bind, Option.bind_some]
    rw [ea]; simp only [Option.bind_some]
    rw [eb]; simp only [Option.bind_some]
    rw [ec]; simp only [Option.bind_some]
    exact ey
  · have hs : |y' / y - c| ≤ c * (1 / 2 ^ 24) := by
      have e1 : y' / y - c = (y' - y * c) / y := by field_simp
      rw [e1, abs_div, abs_of_pos hy, div_le_iff₀ hy]
      refine by'.trans (le_of_eq ?_)
      ring
    have := step_arith (e := 1 / 2 ^ 24) rfl h1 h2 hb (by refine bc.trans (le_of_eq ?_); ring) hs
    have e2 : y ^ 2 * v * (y' / y) ^ 2 = y' ^ 2 * v := by field_simp
    rw [e2] at this
    refine this.trans (le_of_eq ?_)
    ring

/-- The bits of a normal number. -/
theorem bits_normal {v : ℚ} (hf : IsFloat binary32 v) (hv1 : (2 : ℚ) ^ (-126 : ℤ) ≤ v) (hv2 : v < 2 ^ (128 : ℤ)) :
    ∃ E m : Nat, 1 ≤ E ∧ E ≤ 254 ∧ 2 ^ 23 ≤ m ∧ m < 2 ^ 24 ∧ v = m * 2 ^ ((E : ℤ) - 150) ∧ bits v = E * 2 ^ 23 + (m - 2 ^ 23) := by
  have hv0 : 0 < v := lt_of_lt_of_le (zpow_pos (by norm_num) _) hv1
  obtain ⟨L, hL⟩ : ∃ L, L = Int.log 2 v := ⟨_, rfl⟩
  have g1 := zpow_le_self hv0
  have g2 := lt_zpow_self v
  rw [← hL] at g1 g2
  have hL1 : -126 ≤ L := by
    by_contra hc
    have : (2 : ℚ) ^ (L + 1) ≤ 2 ^ (-126 : ℤ) := zpow_le_zpow_right₀ (by norm_num) (by omega)
    linarith
  have hL2 : L ≤ 127 := by
    by_contra hc
    have : (2 : ℚ) ^ (128 : ℤ) ≤ 2 ^ L := zpow_le_zpow_right₀ (by norm_num) (by omega)
    linarith
  have hq := quantum_eq binary32 g1 g2
  rw [show max (L - (binary32.frac : ℤ)) binary32.emin = L - 23 by simp [binary32]; omega] at hq
  have hr := rndPos_of_float hv0.le hf
  unfold rndPos at hr
  rw [hq] at hr
  obtain ⟨n, hn⟩ : ∃ n, n = roundEven (v / 2 ^ (L - 23)) := ⟨_, rfl⟩
  rw [← hn] at hr
  have hp : (0 : ℚ) < 2 ^ (L - 23) := zpow_pos (by norm_num) _
  have e1 : (2 : ℚ) ^ L = 2 ^ 23 * 2 ^ (L - 23) := by
    rw [← zpow_natCast, ← zpow_add₀ (by norm_num)]; congr 1; push_cast; ring
  have e2 : (2 : ℚ) ^ (L + 1) = 2 ^ 24 * 2 ^ (L - 23) := by
    rw [← zpow_natCast, ← zpow_add₀ (by norm_num)]; congr 1; push_cast; ring
  have n1 : (2 ^ 23 : ℤ) ≤ n := by
    rw [e1, ← hr] at g1
    exact_mod_cast le_of_mul_le_mul_right g1 hp
  have n2 : n < (2 ^ 24 : ℤ) := by
    rw [e2, ← hr] at g2
    exact_mod_cast lt_of_mul_lt_mul_right g2 hp.le
  obtain ⟨m, rfl⟩ := Int.eq_ofNat_of_zero_le (show 0 ≤ n by omega)
  refine ⟨(L + 127).toNat, m, by omega, by omega, by omega, by omega, ?_, ?_⟩
  · rw [← hr]
    push_cast
    congr 2
    omega
  · unfold bits bitsPos
    rw [if_neg (by linarith), if_neg (by linarith), ← hL]
    have : ⌊v / 2 ^ (L - 23)⌋ = m := by
      rw [← hr, mul_div_assoc, div_self hp.ne', mul_one]
      push_cast
      exact Int.floor_natCast m
    rw [this]
    simp only [Int.toNat_natCast]
    omega

theorem ofBits_normal {E m : Nat} (h1 : 1 ≤ E) (h2 : E ≤ 254) (hm : m < 2 ^ 23) :
    ofBits (E * 2 ^ 23 + m) = some (((2 ^ 23 + m : Nat) : ℚ) * 2 ^ ((E : ℤ) - 150)) := by
  unfold ofBits
  have e1 : (E * 2 ^ 23 + m) / 2 ^ 23 % 2 ^ 8 = E := by omega
  have e2 : (E * 2 ^ 23 + m) % 2 ^ 23 = m := by omega
  have e3 : (E * 2 ^ 23 + m) / 2 ^ 31 % 2 = 0 := by omega
  simp only [e1, e2, e3]
  rw [if_neg (by omega), if_neg (by omega), if_neg (by omega), one_mul]

/-- The cubic of the first guess: `a` is about 1.4324. -/
theorem cubic_max {a z : ℚ} (ha1 : 1 ≤ a) (ha2 : a ≤ 2) (hz0 : 0 ≤ z) (hz1 : z ≤ 1 / 2) : (a - z) ^ 2 * (1 + 2 * z) ≤ ((2 * a + 1) / 3) ^ 3 := by
  obtain ⟨t, ht⟩ : ∃ t, t = (2 * a + 1) / 3 := ⟨_, rfl⟩
  obtain ⟨s, hs⟩ : ∃ s, s = z - (a - 1) / 3 := ⟨_, rfl⟩
  have e : (a - z) ^ 2 * (1 + 2 * z) = t ^ 3 - s ^ 2 * (3 * t - 2 * s) := by rw [ht, hs]; ring
  have : 0 ≤ s ^ 2 * (3 * t - 2 * s) := mul_nonneg (sq_nonneg _) (by rw [ht, hs]; linarith)
  rw [e, ← ht]
  linarith

theorem cubic_b {a z b : ℚ} (ha1 : 1 ≤ a) (ha2 : a ≤ 5 / 2) (hz0 : 0 ≤ z) (hz1 : z ≤ 1 / 2) (hb1 : 1 + 2 * z ≤ b) (hb2 : b ≤ 1 + 2 * z + 1 / 2 ^ 23) :
    (a - z) ^ 2 * (1 + 2 * z) ≤ (a - z) ^ 2 * b ∧ (a - z) ^ 2 * b ≤ (a - z) ^ 2 * (1 + 2 * z) + 1 / 10 ^ 6 := by
  have h1 : (a - z) ^ 2 ≤ 25 / 4 := by nlinarith
  have h0 := sq_nonneg (a - z)
  refine ⟨mul_le_mul_of_nonneg_left hb1 h0, (mul_le_mul_of_nonneg_left hb2 h0).trans ?_⟩
  have := mul_le_mul_of_nonneg_right h1 (show (0 : ℚ) ≤ 1 / 2 ^ 23 by norm_num)
  norm_num at this ⊢
  linarith

theorem guess_case1 {a b z : ℚ} (ha1 : 14324 / 10000 ≤ a) (ha2 : a ≤ 14325 / 10000) (hz0 : 0 ≤ z) (hz1 : z ≤ a - 1) (hb1 : 1 + 2 * z ≤ b)
    (hb2 : b ≤ 1 + 2 * z + 1 / 2 ^ 23) : 93 / 100 ≤ (a - z) ^ 2 * b / 2 ∧ (a - z) ^ 2 * b / 2 ≤ 107 / 100 := by
  obtain ⟨c1, c2⟩ := cubic_b (a := a) (by linarith) (by linarith) hz0 (by linarith) hb1 hb2
  constructor
  · obtain ⟨w, hw⟩ : ∃ w, w = a - 1 - z := ⟨_, rfl⟩
    have hw0 : 0 ≤ w := by rw [hw]; linarith
    have hw1 : w ≤ 1 / 2 := by rw [hw]; linarith
    have e : (a - z) ^ 2 * (1 + 2 * z) = 2 * a - 1 + w * (2 * (2 * a - 2) + w * (2 * a - 5) - 2 * w ^ 2) := by rw [hw]; ring
    have : 0 ≤ w * (2 * (2 * a - 2) + w * (2 * a - 5) - 2 * w ^ 2) := mul_nonneg hw0 (by nlinarith)
    linarith
  · have h1 := cubic_max (a := a) (by linarith) (by linarith) hz0 (show z ≤ 1 / 2 by linarith)
    have h2 : ((2 * a + 1) / 3) ^ 3 ≤ (12884 / 10000) ^ 3 := pow_le_pow_left₀ (by linarith) (by linarith) 3
    norm_num at h2
    linarith

theorem guess_case2 {a b z : ℚ} (ha1 : 14324 / 10000 ≤ a) (ha2 : a ≤ 14325 / 10000) (hz0 : a - 1 ≤ z) (hz1 : z ≤ 1 / 2) (hb1 : 1 + 2 * z ≤ b)
    (hb2 : b ≤ 1 + 2 * z + 1 / 2 ^ 23) : 93 / 100 ≤ (a + 1 - z) ^ 2 * b / 8 ∧ (a + 1 - z) ^ 2 * b / 8 ≤ 107 / 100 := by
  obtain ⟨c1, c2⟩ := cubic_b (a := a + 1) (by linarith) (by linarith) (by linarith) hz1 hb1 hb2
  have h1 : (19324 / 10000) ^ 2 ≤ (a + 1 - z) ^ 2 := pow_le_pow_left₀ (by norm_num) (by linarith) 2
  have h2 : (a + 1 - z) ^ 2 ≤ 2 ^ 2 := pow_le_pow_left₀ (by linarith) (by linarith) 2
  constructor
  · obtain ⟨w, hw⟩ : ∃ w, w = z - (a - 1) := ⟨_, rfl⟩
    have hw0 : 0 ≤ w := by rw [hw]; linarith
    have hw1 : w ≤ 7 / 100 := by rw [hw]; linarith
    have e : (a + 1 - z) ^ 2 * (1 + 2 * z) = 4 * (2 * a - 1) + w * (8 - 4 * (2 * a - 1) + w * (2 * a - 1 - 8) + 2 * w ^ 2) := by rw [hw]; ring
    have : 0 ≤ w * (8 - 4 * (2 * a - 1) + w * (2 * a - 1 - 8) + 2 * w ^ 2) := mul_nonneg hw0 (by nlinarith)
    linarith
  · have := mul_le_mul h2 (show 1 + 2 * z ≤ 2 by linarith) (by linarith) (by norm_num)
    linarith

theorem guess_case3 {a b z : ℚ} (ha1 : 14324 / 10000 ≤ a) (ha2 : a ≤ 14325 / 10000) (hz0 : 0 ≤ z) (hz1 : z ≤ 1 / 2) (hb1 : 1 + 2 * z ≤ b)
    (hb2 : b ≤ 1 + 2 * z + 1 / 2 ^ 23) : 93 / 100 ≤ (a + 1 / 2 - z) ^ 2 * b / 4 ∧ (a + 1 / 2 - z) ^ 2 * b / 4 ≤ 107 / 100 := by
  obtain ⟨c1, c2⟩ := cubic_b (a := a + 1 / 2) (by linarith) (by linarith) hz0 hz1 hb1 hb2
  constructor
  · have e : (a + 1 / 2 - z) ^ 2 * (1 + 2 * z) = (a + 1 / 2) ^ 2 + z * (2 * (a + 1 / 2) * (a - 1 / 2) + z * (1 - 4 * (a + 1 / 2)) + 2 * z ^ 2) := by ring
    have : 0 ≤ z * (2 * (a + 1 / 2) * (a - 1 / 2) + z * (1 - 4 * (a + 1 / 2)) + 2 * z ^ 2) := mul_nonneg hz0 (by nlinarith)
    have h1 : (19324 / 10000) ^ 2 ≤ (a + 1 / 2) ^ 2 := pow_le_pow_left₀ (by norm_num) (by linarith) 2
    norm_num at h1
    linarith
  · have h1 := cubic_max (a := a + 1 / 2) (by linarith) (by linarith) hz0 hz1
    have h2 : ((2 * (a + 1 / 2) + 1) / 3) ^ 3 ≤ (1622 / 1000) ^ 3 := pow_le_pow_left₀ (by linarith) (by linarith) 3
    norm_num at h2
    linarith

theorem square_prod (Y m : Nat) (a b : ℤ) : ((Y : ℚ) * 2 ^ (a - 150)) ^ 2 * (m * 2 ^ (b - 150)) = Y ^ 2 * m * 2 ^ (2 * a + b - 450) := by
  have : (2 : ℚ) ^ (2 * a + b - 450) = 2 ^ (a - 150) * 2 ^ (a - 150) * 2 ^ (b - 150) := by
    rw [← zpow_add₀ (by norm_num), ← zpow_add₀ (by norm_num)]; congr 1; ring
  rw [this]; ring

/-- The first guess is within 3.5 percent. -/
theorem guess_ok {magic : Nat} (hm : magic = 0x5f375a86 ∨ magic = 0x5f3759df) {v : ℚ} (hf : IsFloat binary32 v) (hv1 : (2 : ℚ) ^ (-126 : ℤ) ≤ v)
    (hv2 : v < 2 ^ (128 : ℤ)) :
    ∃ y, ofBits ((magic + 2 ^ 32 - bits v / 2) % 2 ^ 32) = some y ∧ 0 < y ∧ 93 / 100 ≤ y ^ 2 * v ∧ y ^ 2 * v ≤ 107 / 100 := by
  obtain ⟨E, m, hE1, hE2, hm1, hm2, ev, eb⟩ := bits_normal hf hv1 hv2
  obtain ⟨K, hK⟩ : ∃ K, K = magic - 190 * 2 ^ 23 := ⟨_, rfl⟩
  have hK1 : 3627487 ≤ K ∧ K ≤ 3627654 := by omega
  have hK2 : magic = 190 * 2 ^ 23 + K := by omega
  obtain ⟨n, hn⟩ : ∃ n, n = (m - 2 ^ 23) / 2 := ⟨_, rfl⟩
  have hn1 : 2 ^ 23 + 2 * n ≤ m ∧ m ≤ 2 ^ 23 + 2 * n + 1 ∧ n < 2 ^ 22 := by omega
  -- scaled to numbers around 1
  obtain ⟨a, ha⟩ : ∃ a : ℚ, a = 1 + K / 2 ^ 23 := ⟨_, rfl⟩
  obtain ⟨z, hz⟩ : ∃ z : ℚ, z = n / 2 ^ 23 := ⟨_, rfl⟩
  obtain ⟨b, hb⟩ : ∃ b : ℚ, b = m / 2 ^ 23 := ⟨_, rfl⟩
  have a1 : 14324 / 10000 ≤ a := by
    have : (3627487 : ℚ) ≤ K := by exact_mod_cast hK1.1
    rw [ha]; norm_num; linarith
  have a2 : a ≤ 14325 / 10000 := by
    have : (K : ℚ) ≤ 3627654 := by exact_mod_cast hK1.2
    rw [ha]; norm_num; linarith
  have z0 : 0 ≤ z := by rw [hz]; exact div_nonneg (Nat.cast_nonneg n) (by norm_num)
  have z1 : z ≤ 1 / 2 := by
    have : (n : ℚ) ≤ 4194304 := by exact_mod_cast (by omega : n ≤ 4194304)
    rw [hz, div_le_iff₀ (by norm_num)]; linarith
  have b1 : 1 + 2 * z ≤ b := by
    have : (8388608 : ℚ) + 2 * n ≤ m := by exact_mod_cast (by omega : 8388608 + 2 * n ≤ m)
    rw [hz, hb, le_div_iff₀ (by norm_num)]
    have e : (1 + 2 * ((n : ℚ) / 2 ^ 23)) * 2 ^ 23 = 8388608 + 2 * n := by ring
    rw [e]; exact this
  have b2 : b ≤ 1 + 2 * z + 1 / 2 ^ 23 := by
    have : (m : ℚ) ≤ 8388608 + 2 * n + 1 := by exact_mod_cast (by omega : m ≤ 8388608 + 2 * n + 1)
    rw [hz, hb, div_le_iff₀ (by norm_num)]
    have e : (1 + 2 * ((n : ℚ) / 2 ^ 23) + 1 / 2 ^ 23) * 2 ^ 23 = 8388608 + 2 * n + 1 := by ring
    rw [e]; exact this
  have em : (m : ℚ) = b * 2 ^ 23 := by rw [hb]; field_simp
  rw [eb, ev]
  have pos : ∀ (Y : Nat) (k : ℤ), 0 < Y → (0 : ℚ) < (Y : ℚ) * 2 ^ k := fun Y k h => mul_pos (by exact_mod_cast h) (zpow_pos (by norm_num) _)
  rcases Nat.even_or_odd' E with ⟨c, hc | hc⟩
  · have e1 : (E * 2 ^ 23 + (m - 2 ^ 23)) / 2 = c * 2 ^ 23 + n := by omega
    rw [e1]
    by_cases hnk : n ≤ K
    · have e2 : (magic + 2 ^ 32 - (c * 2 ^ 23 + n)) % 2 ^ 32 = (190 - c) * 2 ^ 23 + (K - n) := by
        rw [Nat.sub_mul]; omega
      rw [e2, ofBits_normal (by omega) (by omega) (by omega)]
      refine ⟨_, rfl, pos _ _ (by omega), ?_⟩
      rw [square_prod, show 2 * ((190 - c : Nat) : ℤ) + (E : ℤ) - 450 = -70 by omega]
      have eY : (((2 ^ 23 + (K - n) : Nat)) : ℚ) = (a - z) * 2 ^ 23 := by
        rw [Nat.cast_add, Nat.cast_sub hnk, ha, hz]; push_cast; ring
      have e3 : ((a - z) * 2 ^ 23) ^ 2 * (b * 2 ^ 23) * 2 ^ (-70 : ℤ) = (a - z) ^ 2 * b / 2 := by norm_num; ring
      rw [eY, em, e3]
      refine guess_case1 a1 a2 z0 ?_ b1 b2
      have : (n : ℚ) ≤ K := by exact_mod_cast hnk
      rw [hz, ha, add_sub_cancel_left]
      exact div_le_div_of_nonneg_right this (by norm_num)
    · have e2 : (magic + 2 ^ 32 - (c * 2 ^ 23 + n)) % 2 ^ 32 = (189 - c) * 2 ^ 23 + (2 ^ 23 + K - n) := by
        rw [Nat.sub_mul]; omega
      rw [e2, ofBits_normal (by omega) (by omega) (by omega)]
      refine ⟨_, rfl, pos _ _ (by omega), ?_⟩
      rw [square_prod, show 2 * ((189 - c : Nat) : ℤ) + (E : ℤ) - 450 = -72 by omega]
      have eY : (((2 ^ 23 + (2 ^ 23 + K - n) : Nat)) : ℚ) = (a + 1 - z) * 2 ^ 23 := by
        rw [Nat.cast_add, Nat.cast_sub (by omega), ha, hz]; push_cast; ring
      have e3 : ((a + 1 - z) * 2 ^ 23) ^ 2 * (b * 2 ^ 23) * 2 ^ (-72 : ℤ) = (a + 1 - z) ^ 2 * b / 8 := by norm_num; ring
      rw [eY, em, e3]
      refine guess_case2 a1 a2 ?_ z1 b1 b2
      have : (K : ℚ) ≤ n := by exact_mod_cast (by omega : K ≤ n)
      rw [hz, ha, add_sub_cancel_left]
      exact div_le_div_of_nonneg_right this (by norm_num)
  · have e1 : (E * 2 ^ 23 + (m - 2 ^ 23)) / 2 = c * 2 ^ 23 + 2 ^ 22 + n := by omega
    have e2 : (magic + 2 ^ 32 - (c * 2 ^ 23 + 2 ^ 22 + n)) % 2 ^ 32 = (189 - c) * 2 ^ 23 + (2 ^ 22 + K - n) := by
      rw [Nat.sub_mul]; omega
    rw [e1, e2, ofBits_normal (by omega) (by omega) (by omega)]
    refine ⟨_, rfl, pos _ _ (by omega), ?_⟩
    rw [square_prod, show 2 * ((189 - c : Nat) : ℤ) + (E : ℤ) - 450 = -71 by omega]
    have eY : (((2 ^ 23 + (2 ^ 22 + K - n) : Nat)) : ℚ) = (a + 1 / 2 - z) * 2 ^ 23 := by
      rw [Nat.cast_add, Nat.cast_sub (by omega), ha, hz]; push_cast; ring
    have e3 : ((a + 1 / 2 - z) * 2 ^ 23) ^ 2 * (b * 2 ^ 23) * 2 ^ (-71 : ℤ) = (a + 1 / 2 - z) ^ 2 * b / 4 := by norm_num; ring
    rw [eY, em, e3]
    exact guess_case3 a1 a2 z0 z1 b1 b2

/-- How the error shrinks. -/
theorem newton_conv {P Q d e : ℚ} (hd0 : 0 ≤ d) (hd : d ≤ 7 / 100) (hP : |P - 1| ≤ d) (hQ : |Q - P * (3 - P) ^ 2 / 4| ≤ e) : |Q - 1| ≤ d ^ 2 + e := by
  obtain ⟨x, hx⟩ : ∃ x, x = P - 1 := ⟨_, rfl⟩
  have e1 : P * (3 - P) ^ 2 / 4 = 1 - x ^ 2 * (3 - x) / 4 := by rw [hx]; ring
  rw [← hx, abs_le] at hP
  have h1 : x ^ 2 ≤ d ^ 2 := by nlinarith
  have h2 : 0 ≤ x ^ 2 * (3 - x) / 4 := by
    have := mul_nonneg (sq_nonneg x) (show 0 ≤ 3 - x by linarith)
    linarith
  have h3 : x ^ 2 * (3 - x) / 4 ≤ d ^ 2 := by
    have := mul_le_mul h1 (show 3 - x ≤ 4 by linarith) (by linarith) (sq_nonneg d)
    linarith
  rw [e1, abs_le] at hQ
  rw [abs_le]
  constructor <;> linarith [hQ.1, hQ.2]

theorem rsqrt_ok {magic : Nat} (hm : magic = 0x5f375a86 ∨ magic = 0x5f3759df) {v : ℚ} (hf : IsFloat binary32 v) (hv1 : (2 : ℚ) ^ (-126 : ℤ) ≤ v)
    (hv2 : v < 2 ^ (128 : ℤ)) : ∃ y, rsqrt magic v = some y ∧ 0 < y ∧ |y ^ 2 * v - 1| ≤ 18 / 2 ^ 24 := by
  obtain ⟨y0, e0, p0, l0, u0⟩ := guess_ok hm hf hv1 hv2
  obtain ⟨y1, e1, p1, b1⟩ := newton_ok hv1 hv2 p0 (by linarith) (by linarith)
  have c1 := newton_conv (d := 7 / 100) (by norm_num) (by norm_num) (by rw [abs_le]; constructor <;> linarith) b1
  have c1' := abs_le.1 c1
  norm_num at c1'
  obtain ⟨y2, e2, p2, b2⟩ := newton_ok hv1 hv2 p1 (by linarith [c1'.1]) (by linarith [c1'.2])
  have c2 := newton_conv (d := 5 / 1000) (by norm_num) (by norm_num) (by rw [abs_le]; constructor <;> linarith [c1'.1, c1'.2]) b2
  have c2' := abs_le.1 c2
  norm_num at c2'
  obtain ⟨y3, e3, p3, b3⟩ := newton_ok hv1 hv2 p2 (by linarith [c2'.1]) (by linarith [c2'.2])
  have c3 := newton_conv (d := 3 / 100000) (by norm_num) (by norm_num) (by rw [abs_le]; constructor <;> linarith [c2'.1, c2'.2]) b3
  refine ⟨y3, ?_, p3, c3.trans (by norm_num)⟩
  unfold rsqrt
  rw [e0]; simp only [Option.bind_eq_bind, Option.bind_some]
  rw [e1]; simp only [Option.bind_some]
  rw [e2]; simp only [Option.bind_some]
  exact e3

/-- **C78** For every positive normal `float` the fast inverse square root and the fast square root return a finite positive number whose relative error is below
10⁻⁶: `r` is the inverse root up to this error if `(r √v)²` is 1 up to twice of it. -/
theorem C78_carmack {v : ℚ} (hf : IsSingle v) (hv : (2 : ℚ) ^ (-126 : ℤ) ≤ v) :
    (∃ r, isqrtCarmack v = some r ∧ 0 < r ∧ (1 - 1 / 10 ^ 6) ^ 2 ≤ r ^ 2 * v ∧ r ^ 2 * v ≤ (1 + 1 / 10 ^ 6) ^ 2) ∧
    (∃ r, sqrtCarmack v = some r ∧ 0 < r ∧ (1 - 1 / 10 ^ 6) ^ 2 * v ≤ r ^ 2 ∧ r ^ 2 ≤ (1 + 1 / 10 ^ 6) ^ 2 * v) := by
  have hv0 : 0 < v := lt_of_lt_of_le (zpow_pos (by norm_num) _) hv
  have hv2 : v < 2 ^ (128 : ℤ) := by have := hf.2; rwa [abs_of_pos hv0] at this
  constructor
  · obtain ⟨y, e, h0, h⟩ := rsqrt_ok (Or.inr rfl) hf.1 hv hv2
    have := abs_le.1 h
    refine ⟨y, e, h0, ?_, ?_⟩ <;> norm_num at this ⊢ <;> linarith [this.1, this.2]
  · obtain ⟨y, e, h0, h⟩ := rsqrt_ok (Or.inl rfl) hf.1 hv hv2
    have hb := abs_le.1 h
    have w0 : 0 < v * y := by positivity
    have ew : (v * y) ^ 2 = (y ^ 2 * v) * v := by ring
    norm_num at hb
    obtain ⟨r, er, br⟩ := fl32_rel (z := v * y) (by
        refine le_trans (b := (2 : ℚ) ^ (-64 : ℤ)) (by norm_num) (le_of_sq w0.le ?_)
        rw [ew]
        have a1 := mul_le_mul (show 9 / 10 ≤ y ^ 2 * v by linarith [hb.1]) hv (by positivity) (by positivity)
        norm_num at a1 ⊢
        linarith) (by
        refine le_trans (b := (2 : ℚ) ^ (65 : ℤ)) (le_of_sq (by positivity) ?_) (by norm_num)
        rw [ew]
        have a1 := mul_le_mul (show y ^ 2 * v ≤ 11 / 10 by linarith [hb.2]) hv2.le hv0.le (by norm_num)
        norm_num at a1 ⊢
        linarith)
    obtain ⟨k1, k2⟩ := rel24 br
    have r0 : 0 < r := lt_of_lt_of_le (mul_pos w0 (by norm_num)) k1
    refine ⟨r, ?_, r0, ?_, ?_⟩
    · unfold sqrtCarmack
      rw [e]; simp only [Option.bind_eq_bind, Option.bind_some]
      exact er
    · have t1 := pow_le_pow_left₀ (mul_pos w0 (by norm_num)).le k1 2
      refine le_trans ?_ t1
      rw [mul_pow, ew, mul_right_comm]
      refine mul_le_mul_of_nonneg_right ?_ hv0.le
      norm_num
      linarith [hb.1]
    · have t1 := pow_le_pow_left₀ r0.le k2 2
      refine t1.trans ?_
      rw [mul_pow, ew, mul_right_comm]
      refine mul_le_mul_of_nonneg_right ?_ hv0.le
      norm_num
      linarith [hb.2]

end Vita
