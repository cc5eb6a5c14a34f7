import Verif.Model.MathNormal
import Verif.Props.MathRandom
import Mathlib.Analysis.SpecialFunctions.Log.Basic
import Mathlib.Analysis.Complex.ExponentialBounds
/-!
# Property C94: normally distributed random numbers follow the polar method
-/

namespace Vita
open Out Spec Math

/-! ### Statement -/

/-- `x` is `y` up to the relative error `e`. -/
def Near (e x y : ℝ) : Prop := ∃ d, |d| ≤ e ∧ x = y * (1 + d)

/-- What is assumed of the C library: four functions with a relative error of at most 2⁻⁵⁰ (for the sine: an absolute error) where they are used. -/
structure GoodLibm (L : Libm) : Prop where
  sin : GoodSin L.sin
  pow2 : ∀ x : ℚ, |x| ≤ 1 → Near (1 / 2 ^ 50) (L.pow2 x) ((x : ℝ) ^ 2)
  log : ∀ x : ℚ, 0 < x → x < 1 → Near (1 / 2 ^ 50) (L.log x) (Real.log x)
  sqrt : ∀ x : ℚ, 0 ≤ x → Near (1 / 2 ^ 50) (L.sqrt x) (Real.sqrt x)

/-- The polar method: from two numbers of `[-1, 1]` whose squares have the sum `w < 1` two deviates are made. -/
structure IsPolar (u1 u2 w x1 x2 : ℝ) : Prop where
  range1 : |u1| ≤ 1
  range2 : |u2| ≤ 1
  pos : 0 < w
  lt_one : w < 1
  sum : Near (1 / 2 ^ 22) w (u1 ^ 2 + u2 ^ 2)
  first : Near (1 / 2 ^ 20) x1 (u1 * Real.sqrt (-2 * Real.log w / w))
  second : Near (1 / 2 ^ 20) x2 (u2 * Real.sqrt (-2 * Real.log w / w))

/-- `u1` and `u2` are made from two numbers in `[0, 2^31)` drawn one after the other by `vt_math_random_f32`, from the state `g` on; `g'` is the state
afterwards. -/
def Drawn (L : Libm) (now : Int) (u1 u2 : ℚ) (g g' : Rng) : Prop :=
  ∃ g1 f1 f2, randomF32' L.sin g now (2 ^ 31 - 1) = (g1, f1) ∧ randomF32' L.sin g1 now (2 ^ 31 - 1) = (g', f2) ∧
    |u1 - (2 * (f1 / 2 ^ 31) - 1)| ≤ 1 / 2 ^ 22 ∧ |u2 - (2 * (f2 / 2 ^ 31) - 1)| ≤ 1 / 2 ^ 22

/-- The pairs drawn from the state `g` on up to the state `g'` are not used: the sum of their squares is not below 1 (up to the error of the sum), or they are
zero. -/
inductive Rejected (L : Libm) (now : Int) : Rng → Rng → Prop
  | none {g : Rng} : Rejected L now g g
  | pair {g g1 g' : Rng} {u1 u2 : ℚ} (hd : Drawn L now u1 u2 g g1) (hr : 1 - 1 / 2 ^ 22 ≤ u1 ^ 2 + u2 ^ 2 ∨ (u1 = 0 ∧ u2 = 0))
      (h : Rejected L now g1 g') : Rejected L now g g'

/-- The deviate `x` with mean `mu` and standard deviation `std`, in `float` arithmetic. -/
def scaled (mu std x : ℚ) : Option ℚ := (fl binary32 (std * x)).bind fun p => fl binary32 (mu + p)

/-! ### Relative errors -/

theorem Near.refl {e x : ℝ} (he : 0 ≤ e) : Near e x x := ⟨0, by simpa using he, by ring⟩

theorem Near.trans {a b c x y z : ℝ} (h1 : Near a x y) (h2 : Near b y z) (hc : a + b + a * b ≤ c) : Near c x z := by
  obtain ⟨d1, g1, rfl⟩ := h1
  obtain ⟨d2, g2, rfl⟩ := h2
  refine ⟨d1 + d2 + d1 * d2, ?_, by ring⟩
  have ha := (abs_nonneg d1).trans g1
  calc |d1 + d2 + d1 * d2| ≤ |d1 + d2| + |d1 * d2| := abs_add_le _ _
    _ ≤ |d1| + |d2| + |d1| * |d2| := by rw [abs_mul]; linarith [abs_add_le d1 d2]
    _ ≤ a + b + a * b := by
      have := mul_le_mul g1 g2 (abs_nonneg _) ha
      linarith
    _ ≤ c := hc

theorem Near.mono {a b x y : ℝ} (h : Near a x y) (hab : a ≤ b) : Near b x y := by
  obtain ⟨d, g, e⟩ := h
  exact ⟨d, g.trans hab, e⟩

theorem Near.mul {a x y : ℝ} (h : Near a x y) (c : ℝ) : Near a (c * x) (c * y) := by
  obtain ⟨d, g, rfl⟩ := h
  exact ⟨d, g, by ring⟩

theorem Near.div {a x y : ℝ} (h : Near a x y) (c : ℝ) : Near a (x / c) (y / c) := by
  obtain ⟨d, g, rfl⟩ := h
  exact ⟨d, g, by ring⟩

theorem Near.pos {a x y : ℝ} (h : Near a x y) (ha : a < 1) (hy : 0 < y) : 0 < x := by
  obtain ⟨d, g, rfl⟩ := h
  have := (abs_le.1 g).1
  exact mul_pos hy (by linarith)

theorem Near.abs_le {a x y : ℝ} (h : Near a x y) : |x| ≤ |y| * (1 + a) := by
  obtain ⟨d, g, rfl⟩ := h
  rw [abs_mul]
  refine mul_le_mul_of_nonneg_left ?_ (abs_nonneg _)
  calc |1 + d| ≤ |1| + |d| := abs_add_le _ _
    _ ≤ 1 + a := by rw [abs_one]; linarith

theorem Near.le_abs {a x y : ℝ} (h : Near a x y) : |y| * (1 - a) ≤ |x| := by
  obtain ⟨d, g, rfl⟩ := h
  rw [abs_mul]
  refine mul_le_mul_of_nonneg_left ?_ (abs_nonneg _)
  have := abs_sub_abs_le_abs_sub (1 : ℝ) (-d)
  rw [abs_neg, abs_one, sub_neg_eq_add] at this
  linarith

theorem Near.add {a x y z w : ℝ} (h1 : Near a x y) (h2 : Near a z w) (hy : 0 ≤ y) (hw : 0 ≤ w) (hp : 0 < y + w) : Near a (x + z) (y + w) := by
  obtain ⟨d1, g1, rfl⟩ := h1
  obtain ⟨d2, g2, rfl⟩ := h2
  refine ⟨(y * d1 + w * d2) / (y + w), ?_, by field_simp; ring⟩
  rw [abs_div, abs_of_pos hp, div_le_iff₀ hp]
  calc |y * d1 + w * d2| ≤ |y * d1| + |w * d2| := abs_add_le _ _
    _ = y * |d1| + w * |d2| := by rw [abs_mul, abs_mul, abs_of_nonneg hy, abs_of_nonneg hw]
    _ ≤ y * a + w * a := add_le_add (mul_le_mul_of_nonneg_left g1 hy) (mul_le_mul_of_nonneg_left g2 hw)
    _ = a * (y + w) := by ring

theorem Near.sqrt {a x y : ℝ} (h : Near a x y) (ha : a < 1) (hy : 0 ≤ y) : Near a (Real.sqrt x) (Real.sqrt y) := by
  obtain ⟨d, g, rfl⟩ := h
  have hd := _root_.abs_le.1 g
  refine ⟨Real.sqrt (1 + d) - 1, ?_, by rw [Real.sqrt_mul hy]; ring⟩
  refine le_trans ?_ g
  rcases le_or_gt 0 d with h0 | h0
  · rw [abs_of_nonneg h0, abs_of_nonneg (by rw [sub_nonneg]; exact Real.one_le_sqrt.2 (by linarith))]
    have : Real.sqrt (1 + d) ≤ 1 + d := by
      rw [Real.sqrt_le_left (by linarith)]
      nlinarith
    linarith
  · have h1 : Real.sqrt (1 + d) ≤ 1 := by rw [Real.sqrt_le_iff]; constructor <;> linarith
    rw [abs_of_neg h0, abs_of_nonpos (by linarith)]
    have : 1 + d ≤ Real.sqrt (1 + d) := by
      apply Real.le_sqrt_of_sq_le
      nlinarith
    linarith

theorem near_rnd {f : Fmt} {x : ℚ} (h : (2 : ℚ) ^ (f.emin + f.frac) ≤ |x|) : Near (1 / 2 ^ (f.frac + 1)) (rnd f x) x := by
  have h1 := rnd_rel h
  have hx : x ≠ 0 := by
    rintro rfl
    rw [abs_zero] at h
    exact absurd (zpow_pos (by norm_num : (0 : ℚ) < 2) (f.emin + f.frac)) (not_lt.2 h)
  refine ⟨((rnd f x - x) / x : ℚ), ?_, ?_⟩
  · have : |(rnd f x - x) / x| ≤ 1 / 2 ^ (f.frac + 1) := by
      rw [abs_div, div_le_iff₀ (abs_pos.2 hx)]
      calc _ ≤ _ := h1
        _ = _ := by ring
    have := (Rat.cast_le (K := ℝ)).2 this
    push_cast at this ⊢
    exact this
  · have : rnd f x = x * (1 + (rnd f x - x) / x) := by field_simp; ring
    have := congrArg (Rat.cast : ℚ → ℝ) this
    push_cast at this ⊢
    exact this

/-! ### The two uniform numbers -/

theorem float_half {y : ℚ} (h : IsFloat binary32 y) (h1 : 1 / 2 ≤ y) : ∃ n : ℤ, y = n * 2 ^ (-24 : ℤ) := by
  obtain ⟨m, e, hm, -, rfl⟩ := h
  rcases le_or_gt (-24) e with he | he
  · refine ⟨m * 2 ^ (e + 24).toNat, ?_⟩
    push_cast
    rw [mul_assoc, ← zpow_natCast, Int.toNat_of_nonneg (by omega), ← zpow_add₀ (by norm_num)]
    congr 2; ring
  · exfalso
    have h2 : (2 : ℚ) ^ e ≤ 2 ^ (-25 : ℤ) := zpow_le_zpow_right₀ (by norm_num) (by omega)
    have h3 : (m : ℚ) < 2 ^ 24 := by
      have := (abs_lt.1 hm).2
      exact_mod_cast this
    have hp : (0 : ℚ) < 2 ^ e := zpow_pos (by norm_num) _
    have : (m : ℚ) * 2 ^ e < 2 ^ 24 * 2 ^ (-25 : ℤ) := lt_of_lt_of_le (mul_lt_mul_of_pos_right h3 hp) (mul_le_mul_of_nonneg_left h2 (by norm_num))
    norm_num at this h1
    linarith

theorem float_pow {k : ℤ} (hk : -149 ≤ k) : IsFloat binary32 (2 ^ k) := ⟨1, k, by norm_num [binary32], hk, by simp⟩

section
variable {L : Libm}

theorem drawU_range (hL : GoodLibm L) (st : Rng) (now : Int) :
    |(drawU L st now).2| ≤ 1 ∧ ((drawU L st now).2 ≠ 0 → (2 : ℚ) ^ (-24 : ℤ) ≤ |(drawU L st now).2|) := by
  obtain ⟨f, hf⟩ : ∃ f, f = (randomF32' L.sin st now 2147483647).2 := ⟨_, rfl⟩
  obtain ⟨h0, h1⟩ := C45_random_f32 hL.sin st now (bound := 2147483647) (by norm_num)
  rw [← hf] at h0 h1
  have e : (drawU L st now).2 = rnd binary32 (-1 + rnd binary32 (rnd binary32 (f / 2147483648) * 2)) := by rw [hf]; rfl
  rw [e]
  obtain ⟨g, hg⟩ : ∃ g, g = rnd binary32 (f / 2147483648) := ⟨_, rfl⟩
  have one : rnd binary32 1 = 1 := rnd_of_float (by simpa using float_pow (k := 0) (by norm_num))
  have hg0 : 0 ≤ g := by rw [hg]; exact rnd_nonneg _ (by positivity)
  have hg1 : g ≤ 1 := by
    rw [hg, ← one]
    refine rnd_mono _ ?_
    rw [div_le_one (by norm_num)]
    push_cast at h1
    linarith
  have hg2 : rnd binary32 (g * 2) = g * 2 := by
    refine rnd_of_float ?_
    obtain ⟨m, e, hm, he, hx⟩ := rnd_isFloat binary32 (f / 2147483648)
    rw [← hg] at hx
    refine ⟨m, e + 1, hm, by omega, ?_⟩
    rw [hx, zpow_add₀ (by norm_num)]
    norm_num
    ring
  rw [← hg, hg2]
  have fl2 : IsFloat binary32 (g * 2) := hg2 ▸ rnd_isFloat binary32 (g * 2)
  obtain ⟨y, hy⟩ : ∃ y, y = g * 2 := ⟨_, rfl⟩
  rw [← hy] at fl2 ⊢
  have hy0 : 0 ≤ y := by rw [hy]; linarith
  have hy1 : y ≤ 2 := by rw [hy]; linarith
  constructor
  · rw [← rnd_abs]
    refine (rnd_mono binary32 (?_ : |-1 + y| ≤ 1)).trans one.le
    rw [abs_le]; constructor <;> linarith
  · intro hne
    rw [← rnd_abs]
    have p24 : rnd binary32 (2 ^ (-24 : ℤ)) = 2 ^ (-24 : ℤ) := rnd_of_float (float_pow (by norm_num))
    rw [← p24]
    refine rnd_mono _ ?_
    rcases lt_or_ge y (1 / 2) with hlt | hge
    · rw [abs_of_neg (by linarith)]
      norm_num
      linarith
    · obtain ⟨n, hn⟩ := float_half fl2 hge
      have hn1 : -1 + y = (n - 2 ^ 24 : ℤ) * 2 ^ (-24 : ℤ) := by
        rw [hn]; push_cast; norm_num; ring
      have hz : n - 2 ^ 24 ≠ 0 := by
        intro hz
        rw [hn1, hz] at hne
        exact hne (by simp)
      rw [hn1, abs_mul, abs_of_pos (zpow_pos (by norm_num : (0 : ℚ) < 2) _)]
      refine le_mul_of_one_le_left (zpow_pos (by norm_num : (0 : ℚ) < 2) _).le ?_
      have := Int.one_le_abs hz
      exact_mod_cast this

/-! ### The loop -/

/-- What the loop is left with. -/
theorem near_zero {a x : ℝ} (h : Near a x 0) : x = 0 := by
  obtain ⟨d, -, rfl⟩ := h
  ring

theorem polar_zero (hL : GoodLibm L) {u1 u2 w : ℚ} (hw : w = rnd binary32 (rnd binary64 (L.pow2 u1 + L.pow2 u2))) (hw0 : w ≠ 0) : ¬ (u1 = 0 ∧ u2 = 0) := by
  rintro ⟨rfl, rfl⟩
  have p1 := hL.pow2 0 (by norm_num)
  have z : L.pow2 0 = 0 := by
    have := near_zero (by simpa using p1)
    exact_mod_cast this
  rw [z] at hw
  simp at hw
  exact hw0 hw

/-- The sum of the squares. -/
theorem polar_sum (hL : GoodLibm L) {u1 u2 w : ℚ} (hw : w = rnd binary32 (rnd binary64 (L.pow2 u1 + L.pow2 u2))) (hw0 : ¬ (u1 = 0 ∧ u2 = 0))
    (h1 : |u1| ≤ 1) (h1' : u1 ≠ 0 → (2 : ℚ) ^ (-24 : ℤ) ≤ |u1|) (h2 : |u2| ≤ 1) (h2' : u2 ≠ 0 → (2 : ℚ) ^ (-24 : ℤ) ≤ |u2|) :
    Near (1 / 2 ^ 22) w ((u1 : ℝ) ^ 2 + (u2 : ℝ) ^ 2) ∧ (1 / 2 ^ 48 : ℝ) ≤ (u1 : ℝ) ^ 2 + (u2 : ℝ) ^ 2 := by
  have p1 := hL.pow2 u1 h1
  have p2 := hL.pow2 u2 h2
  have sq : ∀ {u : ℚ}, (2 : ℚ) ^ (-24 : ℤ) ≤ |u| → (1 / 2 ^ 48 : ℝ) ≤ (u : ℝ) ^ 2 := by
    intro u hu
    have h : ((2 : ℚ) ^ (-24 : ℤ)) ^ 2 ≤ u ^ 2 := by rw [← sq_abs u]; exact pow_le_pow_left₀ (by positivity) hu 2
    have h := (Rat.cast_le (K := ℝ)).2 h
    push_cast at h
    norm_num at h ⊢
    exact h
  have big : (1 / 2 ^ 48 : ℝ) ≤ (u1 : ℝ) ^ 2 + (u2 : ℝ) ^ 2 := by
    by_cases e1 : u1 = 0
    · by_cases e2 : u2 = 0
      · exact absurd ⟨e1, e2⟩ hw0
      · have := sq (h2' e2)
        have := sq_nonneg (u1 : ℝ)
        linarith
    · have := sq (h1' e1)
      have := sq_nonneg (u2 : ℝ)
      linarith
  refine ⟨?_, big⟩
  obtain ⟨q, hq⟩ : ∃ q, q = L.pow2 u1 + L.pow2 u2 := ⟨_, rfl⟩
  have n1 : Near (1 / 2 ^ 50) (q : ℝ) ((u1 : ℝ) ^ 2 + (u2 : ℝ) ^ 2) := by
    rw [hq]; push_cast
    exact p1.add p2 (sq_nonneg _) (sq_nonneg _) (lt_of_lt_of_le (by norm_num) big)
  have b1 : (1 / 2 ^ 49 : ℝ) ≤ |(q : ℝ)| := by
    refine le_trans ?_ n1.le_abs
    rw [abs_of_pos (lt_of_lt_of_le (by norm_num) big)]
    calc (1 / 2 ^ 49 : ℝ) ≤ 1 / 2 ^ 48 * (1 - 1 / 2 ^ 50) := by norm_num
      _ ≤ _ := mul_le_mul_of_nonneg_right big (by norm_num)
  have b1' : (1 / 2 ^ 49 : ℚ) ≤ |q| := by
    rw [← Rat.cast_le (K := ℝ)]; push_cast; exact b1
  have low : ∀ {f : Fmt}, f.emin + f.frac ≤ -60 → (2 : ℚ) ^ (f.emin + f.frac) ≤ 1 / 2 ^ 60 := by
    intro f h
    calc (2 : ℚ) ^ (f.emin + f.frac) ≤ 2 ^ (-60 : ℤ) := zpow_le_zpow_right₀ (by norm_num) h
      _ = 1 / 2 ^ 60 := by norm_num
  have n2 := near_rnd (f := binary64) (x := q) ((low (by decide)).trans (le_trans (by norm_num) b1'))
  have b2 : (1 / 2 ^ 50 : ℝ) ≤ |((rnd binary64 q : ℚ) : ℝ)| := by
    refine le_trans ?_ n2.le_abs
    rw [show binary64.frac + 1 = 53 from rfl]
    calc (1 / 2 ^ 50 : ℝ) ≤ 1 / 2 ^ 49 * (1 - 1 / 2 ^ 53) := by norm_num
      _ ≤ _ := mul_le_mul_of_nonneg_right b1 (by norm_num)
  have b2' : (1 / 2 ^ 50 : ℚ) ≤ |rnd binary64 q| := by
    rw [← Rat.cast_le (K := ℝ)]; push_cast; exact b2
  have n3 := near_rnd (f := binary32) (x := rnd binary64 q) ((low (by decide)).trans (le_trans (by norm_num) b2'))
  rw [hw, ← hq]
  rw [show binary64.frac + 1 = 53 from rfl] at n2
  rw [show binary32.frac + 1 = 24 from rfl] at n3
  exact n3.trans (n2.trans n1 (c := 1 / 2 ^ 49) (by norm_num)) (by norm_num)

/-- The common factor. -/
theorem polarMult_near (hL : GoodLibm L) {w : ℚ} (hw : 0 < w) (hf : IsFloat binary32 w) (h1 : w < 1) :
    Near (1 / 2 ^ 22) (polarMult L w) (Real.sqrt (-2 * Real.log w / w)) ∧ (1 / 2 ^ 12 : ℝ) ≤ Real.sqrt (-2 * Real.log w / w) := by
  have hwR : (0 : ℝ) < w := by exact_mod_cast hw
  have h1R : (w : ℝ) < 1 := by exact_mod_cast h1
  -- the gap below 1
  have gap : w ≤ 1 - 1 / 2 ^ 24 := by
    rcases lt_or_ge w (1 / 2) with h | h
    · linarith [show (1 / 2 : ℚ) ≤ 1 - 1 / 2 ^ 24 by norm_num]
    · obtain ⟨n, hn⟩ := float_half hf h
      have : n < 2 ^ 24 := by
        by_contra hc
        have : ((2 : ℤ) ^ 24 : ℚ) ≤ n := by exact_mod_cast not_lt.1 hc
        have := mul_le_mul_of_nonneg_right this (zpow_pos (by norm_num : (0 : ℚ) < 2) (-24)).le
        rw [← hn] at this
        norm_num at this
        linarith
      have : (n : ℚ) ≤ 2 ^ 24 - 1 := by exact_mod_cast (by omega : n ≤ 2 ^ 24 - 1)
      have := mul_le_mul_of_nonneg_right this (zpow_pos (by norm_num : (0 : ℚ) < 2) (-24)).le
      rw [← hn] at this
      norm_num at this ⊢
      linarith
  have gapR : (w : ℝ) ≤ 1 - 1 / 2 ^ 24 := by
    have := (Rat.cast_le (K := ℝ)).2 gap
    push_cast at this
    exact this
  have lg : Real.log w ≤ -(1 / 2 ^ 24) := (Real.log_le_sub_one_of_pos hwR).trans (by linarith)
  have l1 := hL.log w hw h1
  have l2 : Near (1 / 2 ^ 50) ((-2 * L.log w : ℚ) : ℝ) (-2 * Real.log w) := by
    push_cast; exact l1.mul (-2)
  have hpos : (1 / 2 ^ 23 : ℝ) ≤ -2 * Real.log w := by
    norm_num at lg ⊢; linarith
  have low : (2 : ℚ) ^ (binary64.emin + binary64.frac) ≤ 1 / 2 ^ 60 := by
    calc (2 : ℚ) ^ (binary64.emin + binary64.frac) ≤ 2 ^ (-60 : ℤ) := zpow_le_zpow_right₀ (by norm_num) (by decide)
      _ = 1 / 2 ^ 60 := by norm_num
  have b2 : (1 / 2 ^ 24 : ℝ) ≤ |((-2 * L.log w : ℚ) : ℝ)| := by
    refine le_trans ?_ l2.le_abs
    rw [abs_of_pos (lt_of_lt_of_le (by norm_num) hpos)]
    calc (1 / 2 ^ 24 : ℝ) ≤ 1 / 2 ^ 23 * (1 - 1 / 2 ^ 50) := by norm_num
      _ ≤ _ := mul_le_mul_of_nonneg_right hpos (by norm_num)
  have b2' : (1 / 2 ^ 24 : ℚ) ≤ |-2 * L.log w| := by
    rw [← Rat.cast_le (K := ℝ)]; push_cast at b2 ⊢; exact b2
  have n3 := near_rnd (f := binary64) (x := -2 * L.log w) (low.trans (le_trans (by norm_num) b2'))
  rw [show binary64.frac + 1 = 53 from rfl] at n3
  have n4 := n3.trans l2 (c := 1 / 2 ^ 49) (by norm_num)
  obtain ⟨t, ht⟩ : ∃ t, t = rnd binary64 (-2 * L.log w) := ⟨_, rfl⟩
  rw [← ht] at n4
  have n5 : Near (1 / 2 ^ 49) ((t / w : ℚ) : ℝ) (-2 * Real.log w / w) := by
    push_cast; exact n4.div w
  have hT : (1 / 2 ^ 23 : ℝ) ≤ -2 * Real.log w / w := by
    rw [le_div_iff₀ hwR]
    calc (1 / 2 ^ 23 : ℝ) * w ≤ 1 / 2 ^ 23 * 1 := mul_le_mul_of_nonneg_left h1R.le (by norm_num)
      _ ≤ _ := by linarith
  obtain ⟨T, hTe⟩ : ∃ T, T = -2 * Real.log w / w := ⟨_, rfl⟩
  rw [← hTe] at n5 hT ⊢
  have hTp : 0 < T := lt_of_lt_of_le (by norm_num) hT
  have b5 : (1 / 2 ^ 24 : ℝ) ≤ |((t / w : ℚ) : ℝ)| := by
    refine le_trans ?_ n5.le_abs
    rw [abs_of_pos hTp]
    calc (1 / 2 ^ 24 : ℝ) ≤ 1 / 2 ^ 23 * (1 - 1 / 2 ^ 49) := by norm_num
      _ ≤ _ := mul_le_mul_of_nonneg_right hT (by norm_num)
  have b5' : (1 / 2 ^ 24 : ℚ) ≤ |t / w| := by
    rw [← Rat.cast_le (K := ℝ)]; push_cast at b5 ⊢; exact b5
  have n6 := near_rnd (f := binary64) (x := t / w) (low.trans (le_trans (by norm_num) b5'))
  rw [show binary64.frac + 1 = 53 from rfl] at n6
  have n7 := n6.trans n5 (c := 1 / 2 ^ 48) (by norm_num)
  obtain ⟨v, hv⟩ : ∃ v, v = rnd binary64 (t / w) := ⟨_, rfl⟩
  rw [← hv] at n7
  have hv0 : 0 ≤ v := by
    have := n7.pos (by norm_num) hTp
    exact_mod_cast this.le
  have n8 := (hL.sqrt v hv0).trans (n7.sqrt (by norm_num) hTp.le) (c := 1 / 2 ^ 47) (by norm_num)
  have hsq : (1 / 2 ^ 12 : ℝ) ≤ Real.sqrt T := by
    apply Real.le_sqrt_of_sq_le
    refine le_trans ?_ hT
    norm_num
  refine ⟨?_, hsq⟩
  have b8 : (1 / 2 ^ 13 : ℝ) ≤ |((L.sqrt v : ℚ) : ℝ)| := by
    refine le_trans ?_ n8.le_abs
    rw [abs_of_pos (lt_of_lt_of_le (by norm_num) hsq)]
    calc (1 / 2 ^ 13 : ℝ) ≤ 1 / 2 ^ 12 * (1 - 1 / 2 ^ 47) := by norm_num
      _ ≤ _ := mul_le_mul_of_nonneg_right hsq (by norm_num)
  have b8' : (1 / 2 ^ 13 : ℚ) ≤ |L.sqrt v| := by
    rw [← Rat.cast_le (K := ℝ)]; push_cast; exact b8
  have low32 : (2 : ℚ) ^ (binary32.emin + binary32.frac) ≤ 1 / 2 ^ 60 := by
    calc (2 : ℚ) ^ (binary32.emin + binary32.frac) ≤ 2 ^ (-60 : ℤ) := zpow_le_zpow_right₀ (by norm_num) (by decide)
      _ = 1 / 2 ^ 60 := by norm_num
  have n9 := near_rnd (f := binary32) (x := L.sqrt v) (low32.trans (le_trans (by norm_num) b8'))
  rw [show binary32.frac + 1 = 24 from rfl] at n9
  have := n9.trans n8 (c := 1 / 2 ^ 22) (by norm_num)
  unfold polarMult
  rw [← ht, ← hv]
  exact this

/-- One deviate. -/
theorem deviate_near {u m : ℚ} {r : ℝ} (hm : Near (1 / 2 ^ 22) m r) (hr : (1 / 2 ^ 12 : ℝ) ≤ r) (hu : u ≠ 0 → (2 : ℚ) ^ (-24 : ℤ) ≤ |u|) :
    Near (1 / 2 ^ 20) (rnd binary32 (u * m) : ℚ) (u * r) := by
  by_cases h0 : u = 0
  · subst h0
    simp only [zero_mul, rnd_zero, Rat.cast_zero]
    exact Near.refl (by norm_num)
  have n1 : Near (1 / 2 ^ 22) ((u * m : ℚ) : ℝ) (u * r) := by
    push_cast; exact hm.mul u
  have hu' : (1 / 2 ^ 24 : ℝ) ≤ |(u : ℝ)| := by
    have := (Rat.cast_le (K := ℝ)).2 (hu h0)
    push_cast at this
    norm_num at this ⊢
    exact this
  have b1 : (1 / 2 ^ 37 : ℝ) ≤ |((u * m : ℚ) : ℝ)| := by
    refine le_trans ?_ n1.le_abs
    rw [abs_mul, abs_of_pos (lt_of_lt_of_le (by norm_num) hr)]
    have := mul_le_mul hu' hr (by norm_num) (abs_nonneg _)
    calc (1 / 2 ^ 37 : ℝ) ≤ (1 / 2 ^ 24 * (1 / 2 ^ 12)) * (1 - 1 / 2 ^ 22) := by norm_num
      _ ≤ _ := mul_le_mul_of_nonneg_right this (by norm_num)
  have b1' : (1 / 2 ^ 37 : ℚ) ≤ |u * m| := by
    rw [← Rat.cast_le (K := ℝ)]; push_cast at b1 ⊢; exact b1
  have low32 : (2 : ℚ) ^ (binary32.emin + binary32.frac) ≤ 1 / 2 ^ 60 := by
    calc (2 : ℚ) ^ (binary32.emin + binary32.frac) ≤ 2 ^ (-60 : ℤ) := zpow_le_zpow_right₀ (by norm_num) (by decide)
      _ = 1 / 2 ^ 60 := by norm_num
  have n2 := near_rnd (f := binary32) (x := u * m) (low32.trans (le_trans (by norm_num) b1'))
  rw [show binary32.frac + 1 = 24 from rfl] at n2
  exact n2.trans n1 (by norm_num)

theorem rnd_abs_err {x : ℚ} (h : |x| < 2) : |rnd binary32 x - x| ≤ 1 / 2 ^ 24 := by
  refine (rnd_err binary32 x).trans ?_
  have hq : quantum binary32 |x| ≤ 2 ^ (-23 : ℤ) := by
    unfold quantum
    refine zpow_le_zpow_right₀ (by norm_num) (max_le ?_ (by norm_num [binary32]))
    rcases eq_or_ne x 0 with rfl | h0
    · simp [binary32]
    · have : Int.log 2 |x| < 1 := by
        by_contra hc
        have h1 : (2 : ℚ) ^ (1 : ℤ) ≤ 2 ^ Int.log 2 |x| := zpow_le_zpow_right₀ (by norm_num) (by omega)
        have h2 := zpow_le_self (abs_pos.2 h0)
        norm_num at h1
        linarith
      have : (binary32.frac : ℤ) = 23 := rfl
      omega
  calc quantum binary32 |x| / 2 ≤ 2 ^ (-23 : ℤ) / 2 := div_le_div_of_nonneg_right hq (by norm_num)
    _ = 1 / 2 ^ 24 := by norm_num

theorem drawU_near (hL : GoodLibm L) (st : Rng) (now : Int) : ∃ f, randomF32' L.sin st now (2 ^ 31 - 1) = ((drawU L st now).1, f) ∧
    |(drawU L st now).2 - (2 * (f / 2 ^ 31) - 1)| ≤ 1 / 2 ^ 22 := by
  obtain ⟨f, hf⟩ : ∃ f, f = (randomF32' L.sin st now 2147483647).2 := ⟨_, rfl⟩
  obtain ⟨h0, h1⟩ := C45_random_f32 hL.sin st now (bound := 2147483647) (by norm_num)
  rw [← hf] at h0 h1
  refine ⟨f, by rw [hf]; rfl, ?_⟩
  have e : (drawU L st now).2 = rnd binary32 (-1 + rnd binary32 (rnd binary32 (f / 2147483648) * 2)) := by rw [hf]; rfl
  rw [e]
  obtain ⟨q, hq⟩ : ∃ q, q = f / 2147483648 := ⟨_, rfl⟩
  have hq0 : 0 ≤ q := by rw [hq]; positivity
  have hq1 : q ≤ 1 := by
    rw [hq, div_le_one (by norm_num)]
    push_cast at h1
    linarith
  obtain ⟨g, hg⟩ : ∃ g, g = rnd binary32 q := ⟨_, rfl⟩
  have one : rnd binary32 1 = 1 := rnd_of_float (by simpa using float_pow (k := 0) (by norm_num))
  have hg0 : 0 ≤ g := by rw [hg]; exact rnd_nonneg _ hq0
  have hg1 : g ≤ 1 := by rw [hg, ← one]; exact rnd_mono _ hq1
  have hg2 : rnd binary32 (g * 2) = g * 2 := by
    refine rnd_of_float ?_
    obtain ⟨m, e, hm, he, hx⟩ := rnd_isFloat binary32 q
    rw [← hg] at hx
    refine ⟨m, e + 1, hm, by omega, ?_⟩
    rw [hx, zpow_add₀ (by norm_num)]
    norm_num
    ring
  rw [show f / 2 ^ 31 = q by rw [hq]; norm_num, ← hq, ← hg, hg2]
  have e1 := abs_le.1 (hg ▸ rnd_abs_err (x := q) (by rw [abs_of_nonneg hq0]; linarith))
  have e2 := abs_le.1 (rnd_abs_err (x := -1 + g * 2) (by rw [abs_lt]; constructor <;> linarith))
  rw [abs_le]
  norm_num at e1 e2 ⊢
  constructor <;> linarith

theorem pair_drawn (hL : GoodLibm L) (st : Rng) (now : Int) :
    Drawn L now (drawU L st now).2 (drawU L (drawU L st now).1 now).2 st (drawU L (drawU L st now).1 now).1 := by
  obtain ⟨f1, e1, e1'⟩ := drawU_near hL st now
  obtain ⟨f2, e2, e2'⟩ := drawU_near hL (drawU L st now).1 now
  exact ⟨_, f1, f2, e1, e2, e1', e2'⟩

/-- The loop. -/
theorem polar_ok (hL : GoodLibm L) {now : Int} : ∀ (k : Nat) {st st' : Rng} {u1 u2 w : ℚ}, polar L now k st = .ok (st', u1, u2, w) →
    (∃ g g1, Rejected L now st g ∧ drawU L g now = (g1, u1) ∧ drawU L g1 now = (st', u2)) ∧
      w = rnd binary32 (rnd binary64 (L.pow2 u1 + L.pow2 u2)) ∧ w < 1 ∧ w ≠ 0
  | 0, _, _, _, _, _, h => by cases h
  | k + 1, st, st', u1, u2, w, h => by
    unfold polar at h
    dsimp only at h
    have hd := pair_drawn hL st now
    have r1 := drawU_range hL st now
    have r2 := drawU_range hL (drawU L st now).1 now
    obtain ⟨v1, hv1⟩ : ∃ v, v = (drawU L st now).2 := ⟨_, rfl⟩
    obtain ⟨v2, hv2⟩ : ∃ v, v = (drawU L (drawU L st now).1 now).2 := ⟨_, rfl⟩
    split at h
    · next hc =>
      obtain ⟨⟨g, g1, h1, h2⟩, h3⟩ := polar_ok hL k h
      refine ⟨⟨g, g1, .pair hd ?_ h1, h2⟩, h3⟩
      rw [← hv1, ← hv2] at hc ⊢
      rw [← hv1] at r1
      rw [← hv2] at r2
      by_cases hz : v1 = 0 ∧ v2 = 0
      · exact .inr hz
      · left
        obtain ⟨hs, hb⟩ := polar_sum hL rfl hz r1.1 r1.2 r2.1 r2.2
        have hp := hs.pos (by norm_num) (lt_of_lt_of_le (by norm_num) hb)
        rcases hc with hc | hc
        · rw [← Rat.cast_le (K := ℝ)]
          have hc := (Rat.cast_le (K := ℝ)).2 hc
          have := hs.abs_le
          rw [abs_of_pos hp, abs_of_pos (lt_of_lt_of_le (by norm_num) hb)] at this
          push_cast at hc ⊢
          norm_num at this ⊢
          linarith
        · rw [hc] at hp
          norm_num at hp
    · next hc =>
      injection h with h
      rw [not_or, not_le] at hc
      obtain ⟨h1, h2⟩ := Prod.mk.injEq .. |>.mp h
      obtain ⟨h3, h4⟩ := Prod.mk.injEq .. |>.mp h2
      obtain ⟨h5, h6⟩ := Prod.mk.injEq .. |>.mp h4
      subst h1 h3 h5 h6
      exact ⟨⟨st, _, .none, rfl, rfl⟩, rfl, hc.1, hc.2⟩

theorem polar_bound {u1 u2 w x : ℝ} (h1 : 0 < w) (h2 : w < 1) (hs : Near (1 / 2 ^ 22) w (u1 ^ 2 + u2 ^ 2)) (hb : (1 / 2 ^ 48 : ℝ) ≤ u1 ^ 2 + u2 ^ 2)
    {u : ℝ} (hu : u ^ 2 ≤ u1 ^ 2 + u2 ^ 2) (hx : Near (1 / 2 ^ 20) x (u * Real.sqrt (-2 * Real.log w / w))) : |x| ≤ 33 / 4 := by
  obtain ⟨S, hS⟩ : ∃ S, S = u1 ^ 2 + u2 ^ 2 := ⟨_, rfl⟩
  rw [← hS] at hs hb hu
  have hSp : 0 < S := lt_of_lt_of_le (by norm_num) hb
  have hwS := hs.le_abs
  rw [abs_of_pos hSp, abs_of_pos h1] at hwS
  have lw : -(33.28 : ℝ) ≤ Real.log w := by
    have h3 : (1 / 2 ^ 48 : ℝ) * (1 - 1 / 2 ^ 22) ≤ w := (mul_le_mul_of_nonneg_right hb (by norm_num)).trans hwS
    have h4 := Real.log_le_log (by norm_num) h3
    rw [Real.log_mul (by norm_num) (by norm_num), one_div, Real.log_inv, Real.log_pow] at h4
    have h5 := Real.one_sub_inv_le_log_of_pos (show (0 : ℝ) < 1 - 1 / 2 ^ 22 by norm_num)
    have h6 := Real.log_two_lt_d9
    norm_num at h4 h5 h6 ⊢
    linarith
  have lw0 : Real.log w ≤ 0 := Real.log_nonpos h1.le h2.le
  have hT0 : 0 ≤ -2 * Real.log w / w := div_nonneg (by linarith) h1.le
  have sq : (u * Real.sqrt (-2 * Real.log w / w)) ^ 2 ≤ 66.6 := by
    rw [mul_pow, Real.sq_sqrt hT0]
    calc u ^ 2 * (-2 * Real.log w / w) ≤ S * (-2 * Real.log w / w) := mul_le_mul_of_nonneg_right hu hT0
      _ = (S / w) * (-2 * Real.log w) := by ring
      _ ≤ (1 / (1 - 1 / 2 ^ 22)) * (2 * 33.28) := by
        refine mul_le_mul ?_ (by linarith) (by linarith) (by norm_num)
        rw [div_le_div_iff₀ h1 (by norm_num)]
        linarith
      _ ≤ 66.6 := by norm_num
  refine hx.abs_le.trans ?_
  have h7 : |u * Real.sqrt (-2 * Real.log w / w)| ≤ 8.2 := by
    rw [← sq_abs] at sq
    by_contra hc
    rw [not_le] at hc
    have := mul_self_lt_mul_self (by norm_num : (0 : ℝ) ≤ 8.2) hc
    rw [← pow_two] at this
    norm_num at this sq
    linarith
  calc _ ≤ 8.2 * (1 + 1 / 2 ^ 20) := mul_le_mul_of_nonneg_right h7 (by norm_num)
    _ ≤ 33 / 4 := by norm_num

/-! ### C94 -/

/-- A drawing call, in detail. -/
theorem normal_draws (hL : GoodLibm L) {k : Nat} {st st' : Normal} {now : Int} {mu std : ℚ} {r : Option ℚ} (hc : st.call = false)
    (h : randomF32Normal L k st now mu std = .ok (st', r)) :
    st'.call = true ∧ (∃ u1 u2 w x1 : ℚ, IsPolar u1 u2 w x1 st'.x2 ∧ |x1| ≤ 33 / 4 ∧ |st'.x2| ≤ 33 / 4 ∧ (∃ g, Rejected L now st.rng g ∧ Drawn L now u1 u2 g st'.rng) ∧ r = scaled mu std x1) := by
  unfold randomF32Normal at h
  rw [hc] at h
  simp only [Bool.false_eq_true, if_false] at h
  obtain ⟨⟨g', u1, u2, w⟩, hp, h⟩ := bind_eq_ok.1 h
  dsimp only at h
  injection h with h
  obtain ⟨hst, hr⟩ := Prod.mk.injEq .. |>.mp h
  obtain ⟨⟨g, g1, hrej, hd1, hd2⟩, hw, hw1, hw0⟩ := polar_ok hL k hp
  have r1 := drawU_range hL g now
  have r2 := drawU_range hL g1 now
  have d1 := drawU_near hL g now
  have d2 := drawU_near hL g1 now
  rw [hd1] at r1 d1
  rw [hd2] at r2 d2
  dsimp only at r1 r2 d1 d2
  obtain ⟨hsum, hbig⟩ := polar_sum hL hw (polar_zero hL hw hw0) r1.1 r1.2 r2.1 r2.2
  have hwp : (0 : ℝ) < w := hsum.pos (by norm_num) (lt_of_lt_of_le (by norm_num) hbig)
  have hwq : 0 < w := by exact_mod_cast hwp
  have hw1R : (w : ℝ) < 1 := by exact_mod_cast hw1
  obtain ⟨hm, hmb⟩ := polarMult_near hL hwq (hw ▸ rnd_isFloat binary32 _) hw1
  have n1 := deviate_near hm hmb r1.2
  have n2 := deviate_near hm hmb r2.2
  have cast : ∀ {u : ℚ}, |u| ≤ 1 → |(u : ℝ)| ≤ 1 := by
    intro u hu
    have := (Rat.cast_le (K := ℝ)).2 hu
    push_cast at this
    exact this
  have back : ∀ {x : ℚ}, |(x : ℝ)| ≤ 33 / 4 → |x| ≤ 33 / 4 := by
    intro x hx
    rw [← Rat.cast_le (K := ℝ)]
    push_cast
    exact hx
  subst hst
  refine ⟨rfl, u1, u2, w, _, ⟨cast r1.1, cast r2.1, hwp, hw1R, hsum, n1, n2⟩, back ?_, back ?_, ?_, hr.symm⟩
  · exact polar_bound hwp hw1R hsum hbig (le_add_of_nonneg_right (sq_nonneg _)) n1
  · exact polar_bound hwp hw1R hsum hbig (le_add_of_nonneg_left (sq_nonneg _)) n2
  · obtain ⟨f1, e1, e1'⟩ := d1
    obtain ⟨f2, e2, e2'⟩ := d2
    exact ⟨g, hrej, g1, f1, f2, e1, e2, e1', e2'⟩

/-- **C94.** A call that finds no second deviate stored draws numbers until a pair is accepted and follows the polar method (relative error 2⁻²⁰): its result is the
first deviate, scaled, and the second one is stored. -/
theorem C94_first (hL : GoodLibm L) {k : Nat} {st st' : Normal} {now : Int} {mu std : ℚ} {r : Option ℚ} (hc : st.call = false)
    (h : randomF32Normal L k st now mu std = .ok (st', r)) :
    st'.call = true ∧ ∃ u1 u2 w x1 : ℚ, IsPolar u1 u2 w x1 st'.x2 ∧ (∃ g, Rejected L now st.rng g ∧ Drawn L now u1 u2 g st'.rng) ∧ r = scaled mu std x1 := by
  obtain ⟨h1, u1, u2, w, x1, h2, -, -, h3, h4⟩ := normal_draws hL hc h
  exact ⟨h1, u1, u2, w, x1, h2, h3, h4⟩

/-- **C94.** The next call uses the stored deviate, with its own mean and standard deviation, and draws nothing. -/
theorem C94_second {k : Nat} {st : Normal} (now : Int) (mu std : ℚ) (hc : st.call = true) :
    randomF32Normal L k st now mu std = .ok (⟨false, st.x2, st.rng⟩, scaled mu std st.x2) := by
  unfold randomF32Normal
  rw [hc, if_pos rfl]
  rfl

/-- Calls one after the other from the start of the program: mean, standard deviation and result of each, the last one first. -/
inductive NormalCalls (L : Libm) : List (ℚ × ℚ × Option ℚ) → Normal → Prop
  | start : NormalCalls L [] {}
  | call {l : List (ℚ × ℚ × Option ℚ)} {st st' : Normal} {k : Nat} {now : Int} {mu std : ℚ} {r : Option ℚ} (h : NormalCalls L l st)
      (hr : randomF32Normal L k st now mu std = .ok (st', r)) : NormalCalls L ((mu, std, r) :: l) st'

/-- The limits of a deviate of at most 8.25 in size, scaled. -/
theorem scaled_range {mu std x v : ℚ} (hx : |x| ≤ 33 / 4) (h : scaled mu std x = some v) :
    rnd binary32 (mu - rnd binary32 (33 / 4 * |std|)) ≤ v ∧ v ≤ rnd binary32 (mu + rnd binary32 (33 / 4 * |std|)) := by
  unfold scaled at h
  obtain ⟨p, hp, hv⟩ := Option.bind_eq_some_iff.1 h
  rw [fl_some hv]
  have hp := fl_some hp
  have hb : |std * x| ≤ 33 / 4 * |std| := by
    rw [abs_mul, mul_comm]
    exact mul_le_mul_of_nonneg_right hx (abs_nonneg _)
  have h1 := rnd_mono binary32 (abs_le.1 hb).1
  have h2 := rnd_mono binary32 (abs_le.1 hb).2
  rw [rnd_neg, ← hp] at h1
  rw [← hp] at h2
  constructor
  · exact rnd_mono _ (by linarith)
  · exact rnd_mono _ (by linarith)

theorem fl_small {x : ℚ} (h : |x| ≤ 2 ^ (127 : ℤ)) : fl binary32 x = some (rnd binary32 x) ∧ |rnd binary32 x| ≤ 2 ^ (127 : ℤ) := by
  have h1 : |rnd binary32 x| ≤ 2 ^ (127 : ℤ) := by
    rw [← rnd_abs, ← rnd_of_float (float_pow (k := 127) (by norm_num))]
    exact rnd_mono _ h
  refine ⟨?_, h1⟩
  unfold fl
  rw [if_pos]
  refine lt_of_le_of_lt h1 ?_
  show (2 : ℚ) ^ (127 : ℤ) < 2 ^ (128 : ℤ)
  exact zpow_lt_zpow_right₀ (by norm_num) (by norm_num)

/-- **C94, histories.** In every sequence of calls with any parameters, every second call draws nothing (`call`, see `C94_second`), and every result is made of a deviate of at
most 8.25 in size. -/
theorem C94_history (hL : GoodLibm L) {l : List (ℚ × ℚ × Option ℚ)} {st : Normal} (h : NormalCalls L l st) :
    st.call = decide (l.length % 2 = 1) ∧ |st.x2| ≤ 33 / 4 ∧ ∀ c ∈ l, ∃ x, |x| ≤ 33 / 4 ∧ c.2.2 = scaled c.1 c.2.1 x := by
  induction h with
  | start => exact ⟨rfl, by norm_num, by simp⟩
  | @call l st st' k now mu std r h hr ih =>
    obtain ⟨i1, i2, i3⟩ := ih
    cases hc : st.call with
    | false =>
      obtain ⟨h1, u1, u2, w, x1, -, b1, b2, -, h4⟩ := normal_draws hL hc hr
      rw [hc] at i1
      have : ¬ l.length % 2 = 1 := by simpa using i1.symm
      refine ⟨by rw [h1, List.length_cons]; symm; rw [decide_eq_true_eq]; omega, b2, ?_⟩
      intro c hm
      rcases List.mem_cons.1 hm with rfl | hm
      · exact ⟨x1, b1, h4⟩
      · exact i3 c hm
    | true =>
      rw [C94_second now mu std hc] at hr
      injection hr with hr
      obtain ⟨rfl, rfl⟩ := Prod.mk.injEq .. |>.mp hr
      rw [hc] at i1
      have : l.length % 2 = 1 := by simpa using i1.symm
      refine ⟨by rw [List.length_cons]; symm; rw [decide_eq_false_iff_not]; omega, i2, ?_⟩
      intro c hm
      rcases List.mem_cons.1 hm with rfl | hm
      · exact ⟨st.x2, i2, rfl⟩
      · exact i3 c hm

/-- **C94, range.** No result of any sequence of calls is further from the mean than 8.25 standard deviations (computed in `float`). -/
theorem C94_range (hL : GoodLibm L) {l : List (ℚ × ℚ × Option ℚ)} {st : Normal} (h : NormalCalls L l st) {mu std v : ℚ} (hc : (mu, std, some v) ∈ l) :
    rnd binary32 (mu - rnd binary32 (33 / 4 * |std|)) ≤ v ∧ v ≤ rnd binary32 (mu + rnd binary32 (33 / 4 * |std|)) := by
  obtain ⟨x, hx, e⟩ := (C94_history hL h).2.2 _ hc
  exact scaled_range hx e.symm

/-- **C94, finite.** The result is a number (no infinity or NaN) unless the parameters are enormous. -/
theorem C94_finite (hL : GoodLibm L) {l : List (ℚ × ℚ × Option ℚ)} {st : Normal} (h : NormalCalls L l st) {mu std : ℚ} {r : Option ℚ} (hc : (mu, std, r) ∈ l)
    (hm : |mu| ≤ 2 ^ 126) (hs : |std| ≤ 2 ^ 122) : ∃ v, r = some v ∧ IsSingle v := by
  obtain ⟨x, hx, e⟩ := (C94_history hL h).2.2 _ hc
  dsimp only at e
  have hb : |std * x| ≤ 2 ^ (126 : ℤ) := by
    rw [abs_mul]
    calc |std| * |x| ≤ 2 ^ 122 * (33 / 4) := mul_le_mul hs hx (abs_nonneg _) (by norm_num)
      _ ≤ 2 ^ (126 : ℤ) := by norm_num
  have f1 := (fl_small (hb.trans (zpow_le_zpow_right₀ (by norm_num) (by norm_num)))).1
  have p1 : |rnd binary32 (std * x)| ≤ 2 ^ (126 : ℤ) := by
    rw [← rnd_abs, ← rnd_of_float (float_pow (k := 126) (by norm_num))]
    exact rnd_mono _ hb
  have hb2 : |mu + rnd binary32 (std * x)| ≤ 2 ^ (127 : ℤ) := by
    calc _ ≤ |mu| + |rnd binary32 (std * x)| := abs_add_le _ _
      _ ≤ 2 ^ 126 + 2 ^ (126 : ℤ) := add_le_add hm p1
      _ ≤ 2 ^ (127 : ℤ) := by norm_num
  obtain ⟨f2, p2⟩ := fl_small hb2
  refine ⟨rnd binary32 (mu + rnd binary32 (std * x)), ?_, rnd_isFloat _ _, lt_of_le_of_lt p2 (zpow_lt_zpow_right₀ (by norm_num) (by norm_num))⟩
  rw [e]
  unfold scaled
  rw [f1, Option.bind_some, f2]

/-- **C94.** With standard deviation 0 the result is the mean. -/
theorem C94_no_deviation (hL : GoodLibm L) {l : List (ℚ × ℚ × Option ℚ)} {st : Normal} (h : NormalCalls L l st) {mu : ℚ} {r : Option ℚ}
    (hc : (mu, 0, r) ∈ l) (hm : IsSingle mu) : r = some mu := by
  obtain ⟨x, -, e⟩ := (C94_history hL h).2.2 _ hc
  dsimp only at e
  rw [e]
  unfold scaled
  rw [zero_mul, fl_float (isFloat_zero _) (by rw [abs_zero]; exact zpow_pos (by norm_num) _), Option.bind_some, add_zero]
  exact fl_float hm.1 hm.2

end

/-- There are such functions. -/
theorem goodLibm_exists : ∃ L, GoodLibm L := by
  have near : ∀ y : ℝ, ∃ q : ℚ, Near (1 / 2 ^ 50) q y := by
    intro y
    rcases eq_or_ne y 0 with rfl | h0
    · exact ⟨0, 0, by norm_num, by simp⟩
    · have hp : 0 < |y| / 2 ^ 50 := div_pos (abs_pos.2 h0) (by norm_num)
      obtain ⟨q, h1, h2⟩ := exists_rat_btwn (show y < y + |y| / 2 ^ 50 by linarith)
      refine ⟨q, (q - y) / y, ?_, by field_simp; ring⟩
      rw [abs_div, div_le_iff₀ (abs_pos.2 h0), abs_of_pos (by linarith)]
      linarith [show (1 : ℝ) / 2 ^ 50 * |y| = |y| / 2 ^ 50 by ring]
  choose f hf using near
  obtain ⟨g, hg⟩ := goodSin_exists
  exact ⟨⟨g, fun x => f ((x : ℝ) ^ 2), fun x => f (Real.log x), fun x => f (Real.sqrt x)⟩, hg, fun _ _ => hf _, fun _ _ _ => hf _, fun _ _ => hf _⟩

theorem sin_six : 1 / 4 ≤ |Real.sin 6| - 1 / 2 ^ 6 ∧ |Real.sin 6| + 1 / 2 ^ 9 ≤ 37 / 128 := by
  have h1 := Real.pi_gt_d4
  have h2 := Real.pi_lt_d4
  have e : Real.sin 6 = -Real.sin (2 * Real.pi - 6) := by rw [Real.sin_two_pi_sub, neg_neg]
  obtain ⟨x, hx⟩ : ∃ x, x = 2 * Real.pi - 6 := ⟨_, rfl⟩
  rw [e, abs_neg, ← hx]
  have x1 : 0.283 < x := by rw [hx]; norm_num at h1 ⊢; linarith
  have x2 : x < 0.2832 := by rw [hx]; norm_num at h2 ⊢; linarith
  have g1 := Real.sin_lt (show 0 < x by linarith)
  have g2 := Real.sin_gt_sub_cube (show 0 < x by linarith)
  have g3 : x ^ 3 ≤ 0.2832 ^ 3 := pow_le_pow_left₀ (by linarith) x2.le 3
  rw [abs_of_pos (by norm_num at g3 ⊢; linarith)]
  norm_num at g3 x1 x2 ⊢
  constructor <;> linarith

theorem drawU_six {L : Libm} (hL : GoodLibm L) {st : Rng} {now : Int} (h : (randomU64 st now).2 = 6) :
    -0.52 ≤ (drawU L st now).2 ∧ (drawU L st now).2 ≤ -0.42 := by
  obtain ⟨f, hf, hn⟩ := drawU_near hL st now
  have e : f = rnd binary32 (rnd binary64 ((2 ^ 31 - 1 : Nat) * |rnd binary32 (L.sin 6)|)) := by
    have := congrArg Prod.snd hf
    rw [← h]
    exact this.symm
  obtain ⟨s1, s2⟩ := sin_six
  have s0 := hL.sin 6 (by norm_num)
  push_cast at s0
  have a1 : |(L.sin 6 : ℝ)| ≤ 37 / 128 := by
    have := abs_add_le ((L.sin 6 : ℝ) - Real.sin 6) (Real.sin 6)
    rw [sub_add_cancel] at this
    norm_num at s0 s2 ⊢
    linarith
  have a2 : 1 / 4 ≤ |(L.sin 6 : ℝ)| := by
    have := abs_add_le (Real.sin 6 - (L.sin 6 : ℝ)) (L.sin 6)
    rw [sub_add_cancel, abs_sub_comm] at this
    norm_num at s0 s1 ⊢
    linarith
  have a1' : |L.sin 6| ≤ 37 / 128 := by rw [← Rat.cast_le (K := ℝ)]; push_cast; exact a1
  have a2' : 1 / 4 ≤ |L.sin 6| := by rw [← Rat.cast_le (K := ℝ)]; push_cast; exact a2
  have b1 := rnd_mono binary32 a1'
  have b2 := rnd_mono binary32 a2'
  rw [rnd_abs, rnd_of_float (x := 37 / 128) ⟨37, -7, by norm_num [binary32], by norm_num [binary32], by norm_num⟩] at b1
  rw [rnd_abs, rnd_of_float (x := 1 / 4) ⟨1, -2, by norm_num [binary32], by norm_num [binary32], by norm_num⟩] at b2
  have c1 : ((2 ^ 31 - 1 : Nat) : ℚ) * |rnd binary32 (L.sin 6)| ≤ 37 * 2 ^ (24 : ℤ) := by
    push_cast; norm_num; linarith
  have c2 : 31 * 2 ^ (24 : ℤ) ≤ ((2 ^ 31 - 1 : Nat) : ℚ) * |rnd binary32 (L.sin 6)| := by
    push_cast; norm_num; linarith
  have d1 := rnd_mono binary32 (rnd_mono binary64 c1)
  have d2 := rnd_mono binary32 (rnd_mono binary64 c2)
  rw [← e] at d1 d2
  rw [rnd_of_float (f := binary64) ⟨37, 24, by norm_num [binary64], by norm_num [binary64], by norm_num⟩,
    rnd_of_float ⟨37, 24, by norm_num [binary32], by norm_num [binary32], by norm_num⟩] at d1
  rw [rnd_of_float (f := binary64) ⟨31, 24, by norm_num [binary64], by norm_num [binary64], by norm_num⟩,
    rnd_of_float ⟨31, 24, by norm_num [binary32], by norm_num [binary32], by norm_num⟩] at d2
  have hn := abs_le.1 hn
  norm_num at d1 d2 hn ⊢
  constructor <;> linarith

/-- Example: with the clock at 1614443342 the first two numbers drawn are 6 and 6, whose sines give an accepted pair; so the first call returns. -/
theorem normal_returns {L : Libm} (hL : GoodLibm L) (mu std : ℚ) : ∃ st r, randomF32Normal L 1 {} 1614443342 mu std = .ok (st, r) := by
  have six1 : randomU64 none 1614443342 = (some 3221436182, 6) := by decide +kernel
  have six2 : randomU64 (some 3221436182) 1614443342 = (some 1073955977, 6) := by decide +kernel
  have g1 := drawU_six hL (show (randomU64 none 1614443342).2 = 6 by rw [six1])
  have e1 : (drawU L none 1614443342).1 = some 3221436182 := by
    show (randomU64 none 1614443342).1 = _
    rw [six1]
  have g2 := drawU_six hL (show (randomU64 (drawU L none 1614443342).1 1614443342).2 = 6 by rw [e1, six2])
  obtain ⟨u1, hu1⟩ : ∃ u, u = (drawU L none 1614443342).2 := ⟨_, rfl⟩
  obtain ⟨u2, hu2⟩ : ∃ u, u = (drawU L (drawU L none 1614443342).1 1614443342).2 := ⟨_, rfl⟩
  rw [← hu1] at g1
  rw [← hu2] at g2
  obtain ⟨w, hw⟩ : ∃ w, w = rnd binary32 (rnd binary64 (L.pow2 u1 + L.pow2 u2)) := ⟨_, rfl⟩
  have key : ∀ {u : ℚ}, -0.52 ≤ u ∧ u ≤ -0.42 → 1 / 16 ≤ L.pow2 u ∧ L.pow2 u ≤ 5 / 16 := by
    rintro u ⟨h1, h2⟩
    have hp := hL.pow2 u (by rw [abs_le]; norm_num at h1 h2 ⊢; constructor <;> linarith)
    have q1 : (u : ℝ) ^ 2 ≤ 0.28 := by
      have : u ^ 2 ≤ 0.28 := by norm_num at h1 h2 ⊢; nlinarith
      have := (Rat.cast_le (K := ℝ)).2 this
      push_cast at this
      norm_num at this ⊢
      exact this
    have q2 : 0.17 ≤ (u : ℝ) ^ 2 := by
      have : 0.17 ≤ u ^ 2 := by norm_num at h1 h2 ⊢; nlinarith
      have := (Rat.cast_le (K := ℝ)).2 this
      push_cast at this
      norm_num at this ⊢
      exact this
    have hpp := hp.pos (by norm_num) (by linarith)
    have r1 := hp.abs_le
    have r2 := hp.le_abs
    rw [abs_of_pos hpp, abs_of_pos (by linarith)] at r1 r2
    constructor
    · rw [← Rat.cast_le (K := ℝ)]; push_cast; norm_num at r2 q2 ⊢; linarith
    · rw [← Rat.cast_le (K := ℝ)]; push_cast; norm_num at r1 q1 ⊢; linarith
  obtain ⟨k1, k2⟩ := key g1
  obtain ⟨k3, k4⟩ := key g2
  have w1 := rnd_mono binary32 (rnd_mono binary64 (show L.pow2 u1 + L.pow2 u2 ≤ 5 / 8 by linarith))
  have w2 := rnd_mono binary32 (rnd_mono binary64 (show 1 / 8 ≤ L.pow2 u1 + L.pow2 u2 by linarith))
  rw [rnd_of_float (f := binary64) (x := 5 / 8) ⟨5, -3, by norm_num [binary64], by norm_num [binary64], by norm_num⟩,
    rnd_of_float (x := 5 / 8) ⟨5, -3, by norm_num [binary32], by norm_num [binary32], by norm_num⟩, ← hw] at w1
  rw [rnd_of_float (f := binary64) (x := 1 / 8) ⟨1, -3, by norm_num [binary64], by norm_num [binary64], by norm_num⟩,
    rnd_of_float (x := 1 / 8) ⟨1, -3, by norm_num [binary32], by norm_num [binary32], by norm_num⟩, ← hw] at w2
  have hp : polar L 1614443342 1 none = .ok ((drawU L (drawU L none 1614443342).1 1614443342).1, u1, u2, w) := by
    unfold polar
    dsimp only
    rw [← hu1, ← hu2, ← hw, if_neg]
    rintro (h | h) <;> linarith
  unfold randomF32Normal
  rw [if_neg (by simp), show ({} : Normal).rng = none from rfl, hp, bind_ok]
  exact ⟨_, _, rfl⟩

/-- Example: a history of two calls. -/
example : ∃ L l st, GoodLibm L ∧ NormalCalls L l st ∧ l.length = 2 := by
  obtain ⟨L, hL⟩ := goodLibm_exists
  obtain ⟨st, r, h⟩ := normal_returns hL 10 2
  have hc := (C94_first hL rfl h).1
  exact ⟨L, _, _, hL, .call (.call .start h) (C94_second (k := 0) 0 0 1 hc), rfl⟩

end Vita
