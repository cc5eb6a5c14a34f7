import Verif.Props.MathNormal
import Verif.Props.RandomPeriod
import Mathlib.RingTheory.ZMod.UnitsCyclic
/-!
# Property C96: when normally distributed random numbers can be drawn at all
-/

namespace Vita
open Out Spec Math

/-! ### The sine of an integer -/

/-- The distance of `r` from the nearest multiple of pi in millionths, rounded down. -/
def angle (r : Nat) : Nat :=
  let x := r * 100000000000000000000 % 314159265358979323846
  min x (314159265358979323846 - x) / 100000000000000

theorem angle_spec {r : Nat} (hr : r < 32768) : ∃ θ : ℝ, |Real.sin r| = |Real.sin θ| ∧ (angle r : ℝ) / 1000000 - 1 / 10 ^ 9 ≤ θ ∧
    θ ≤ (angle r + 1 : ℝ) / 1000000 + 1 / 10 ^ 9 ∧ θ ≤ Real.pi / 2 + 1 / 10 ^ 9 := by
  obtain ⟨x, hx⟩ : ∃ x, x = r * 100000000000000000000 % 314159265358979323846 := ⟨_, rfl⟩
  obtain ⟨m, hm⟩ : ∃ m, m = r * 100000000000000000000 / 314159265358979323846 := ⟨_, rfl⟩
  have e : r * 100000000000000000000 = 314159265358979323846 * m + x := by rw [hx, hm]; exact (Nat.div_add_mod _ _).symm
  have hxl : x < 314159265358979323846 := by rw [hx]; exact Nat.mod_lt _ (by norm_num)
  have hml : m < 32768 := by rw [hm]; omega
  have g1 := Real.pi_gt_d20
  have g2 := Real.pi_lt_d20
  have e' : (r : ℝ) * 100000000000000000000 = 314159265358979323846 * m + x := by exact_mod_cast e
  have hm0 : (0 : ℝ) ≤ m := by positivity
  have hm1 : (m : ℝ) ≤ 32768 := by exact_mod_cast hml.le
  have k1 := mul_le_mul_of_nonneg_left g1.le hm0
  have k2 := mul_le_mul_of_nonneg_left g2.le hm0
  have hxl' : (x : ℝ) ≤ 314159265358979323846 := by exact_mod_cast hxl.le
  have ha : angle r = min x (314159265358979323846 - x) / 100000000000000 := by unfold angle; rw [← hx]
  obtain ⟨a, haa⟩ : ∃ a, a = angle r := ⟨_, rfl⟩
  rw [← haa] at ha ⊢
  have hs : |Real.sin r| = |Real.sin (r - m * Real.pi)| := by
    rw [Real.sin_sub_nat_mul_pi, abs_mul, abs_pow, abs_neg, abs_one, one_pow, one_mul]
  rcases le_total x (314159265358979323846 - x) with hc | hc
  · rw [min_eq_left hc] at ha
    have b1 : a * 100000000000000 ≤ x := by rw [ha]; exact Nat.div_mul_le_self _ _
    have b2 : x < (a + 1) * 100000000000000 := by rw [ha]; omega
    have b1' : (a : ℝ) * 100000000000000 ≤ x := by exact_mod_cast b1
    have b2' : (x : ℝ) ≤ (a + 1) * 100000000000000 := by exact_mod_cast b2.le
    have b3 : (x : ℝ) * 2 ≤ 314159265358979323846 := by exact_mod_cast (by omega : x * 2 ≤ 314159265358979323846)
    refine ⟨r - m * Real.pi, hs, ?_, ?_, ?_⟩ <;> norm_num at k1 k2 g1 g2 ⊢ <;> linarith
  · rw [min_eq_right hc] at ha
    have b1 : a * 100000000000000 ≤ 314159265358979323846 - x := by rw [ha]; exact Nat.div_mul_le_self _ _
    have b2 : 314159265358979323846 - x < (a + 1) * 100000000000000 := by rw [ha]; omega
    have b1n : a * 100000000000000 + x ≤ 314159265358979323846 := Nat.add_le_of_le_sub hxl.le b1
    have b2n : 314159265358979323846 ≤ (a + 1) * 100000000000000 + x := Nat.le_add_of_sub_le b2.le
    have b1' : (a : ℝ) * 100000000000000 + x ≤ 314159265358979323846 := by
      have := (Nat.cast_le (α := ℝ)).2 b1n
      push_cast at this
      exact this
    have b2' : (314159265358979323846 : ℝ) ≤ (a + 1) * 100000000000000 + x := by
      have := (Nat.cast_le (α := ℝ)).2 b2n
      push_cast at this
      exact this
    have b3n : 314159265358979323846 ≤ x * 2 := by rw [mul_two]; exact Nat.le_add_of_sub_le hc
    have b3 : (314159265358979323846 : ℝ) ≤ x * 2 := by
      have := (Nat.cast_le (α := ℝ)).2 b3n
      push_cast at this
      exact this
    refine ⟨Real.pi - (r - m * Real.pi), ?_, ?_, ?_, ?_⟩
    · rw [hs, Real.sin_pi_sub]
    all_goals (norm_num at k1 k2 g1 g2 ⊢; linarith)

/-- `2 |sin r| - 1` lies between -1 + ... according to the angle. -/
theorem sin_ge_of {θ lo c : ℝ} (h0 : 0 ≤ lo) (h1 : lo ≤ 1) (h : lo ≤ θ) (hp : θ ≤ Real.pi / 2 + 1 / 10 ^ 9) (hc : c ≤ lo - lo ^ 3 / 6 - lo ^ 5 / 100) (hc2 : c ≤ 0.9) :
    c ≤ Real.sin θ := by
  rcases le_total θ (Real.pi / 2) with h2 | h2
  · have := Real.sin_le_sin_of_le_of_le_pi_div_two (by linarith [Real.pi_pos]) h2 h
    have b := abs_le.1 (Real.sin_bound (x := lo) (by rw [abs_of_nonneg h0]; exact h1))
    rw [abs_of_nonneg h0] at b
    linarith [b.1]
  · have e : Real.sin θ = Real.cos (θ - Real.pi / 2) := by rw [Real.cos_sub_pi_div_two]
    rw [e]
    have := Real.one_sub_sq_div_two_le_cos (x := θ - Real.pi / 2)
    have h3 : (θ - Real.pi / 2) ^ 2 ≤ 0.1 := by
      have : (θ - Real.pi / 2) ^ 2 ≤ (1 / 10 ^ 9) ^ 2 := pow_le_pow_left₀ (by linarith) (by linarith) 2
      norm_num at this ⊢; linarith
    linarith

theorem sin_le_of {θ hi c : ℝ} (h0 : 0 ≤ θ) (h : θ ≤ hi) (h1 : hi ≤ 1) (hc : hi - hi ^ 3 / 6 + hi ^ 5 / 100 ≤ c) : Real.sin θ ≤ c := by
  have h2 : hi ≤ Real.pi / 2 := by linarith [Real.pi_gt_three]
  have := Real.sin_le_sin_of_le_of_le_pi_div_two (by linarith [Real.pi_pos]) h2 h
  have h3 : 0 ≤ hi := h0.trans h
  have b := abs_le.1 (Real.sin_bound (x := hi) (by rw [abs_of_nonneg h3]; exact h1))
  rw [abs_of_nonneg h3] at b
  linarith [b.2]

theorem sin_le_of' {θ hi x c : ℝ} (h0 : 0 ≤ θ) (h : θ ≤ hi) (hx : x = 1.5707 - hi) (h1 : 0 ≤ x) (h2 : x ≤ 1) (hc : 1 - x ^ 2 / 2 + x ^ 4 * (5 / 96) ≤ c) : Real.sin θ ≤ c := by
  have hpi := Real.pi_gt_d4
  have h3 : hi ≤ Real.pi / 2 := by norm_num at hpi hx; linarith
  have h4 := Real.sin_le_sin_of_le_of_le_pi_div_two (by linarith [Real.pi_pos]) h3 h
  have h5 : Real.sin hi ≤ Real.cos x := by
    rw [← Real.cos_pi_div_two_sub]
    apply Real.cos_le_cos_of_nonneg_of_le_pi h1 (by linarith [Real.pi_pos])
    norm_num at hpi hx; linarith
  have b := abs_le.1 (Real.cos_bound (x := x) (by rw [abs_of_nonneg h1]; exact h2))
  rw [abs_of_nonneg h1] at b
  linarith [b.2]

/-- A bound of `|2 |sin r| - 1|` in units of 1/10000, from the angle. -/
def uBound (v : Nat) : Nat :=
  if 484000 ≤ v ∧ v ≤ 564500 then 800
  else if 348000 ≤ v ∧ v ≤ 710000 then 3200
  else if 306000 ≤ v ∧ v ≤ 770000 then 4000
  else if 151000 ≤ v ∧ v ≤ 1000000 then 7000
  else if 51000 ≤ v ∧ v ≤ 1250000 then 9000
  else if 29000 ≤ v ∧ v ≤ 1330000 then 9440
  else if 4500 ≤ v ∧ v ≤ 1477600 then 9915
  else 10000

theorem uBound_spec {r : Nat} (hr : r < 32768) : |2 * |Real.sin r| - 1| ≤ (uBound (angle r) : ℝ) / 10000 := by
  obtain ⟨θ, e, h1, h2, h3⟩ := angle_spec hr
  generalize angle r = v at *
  rw [e]
  have hle : |Real.sin θ| ≤ 1 := Real.abs_sin_le_one θ
  have h0 := abs_nonneg (Real.sin θ)
  have key : ∀ (lo hi b : Nat), lo ≤ v ∧ v ≤ hi → (1 - b / 10000 : ℝ) / 2 ≤ Real.sin θ → Real.sin θ ≤ (1 + b / 10000 : ℝ) / 2 → (b : ℝ) ≤ 10000 →
      |2 * |Real.sin θ| - 1| ≤ (b : ℝ) / 10000 := by
    intro lo hi b _ g1 g2 hb
    rw [abs_of_nonneg (show 0 ≤ Real.sin θ by linarith), abs_le]
    constructor <;> linarith
  have cast : ∀ {lo hi : Nat}, lo ≤ v ∧ v ≤ hi → (lo : ℝ) / 1000000 - 1 / 10 ^ 9 ≤ θ ∧ θ ≤ (hi + 1 : ℝ) / 1000000 + 1 / 10 ^ 9 := by
    intro lo hi h
    have a1 : (lo : ℝ) ≤ v := by exact_mod_cast h.1
    have a2 : (v : ℝ) ≤ hi := by exact_mod_cast h.2
    constructor <;> linarith
  unfold uBound
  split
  · next h =>
    obtain ⟨c1, c2⟩ := cast h
    refine key _ _ 800 h (sin_ge_of (lo := 0.4839) (by norm_num) (by norm_num) ?_ h3 (by norm_num) (by norm_num))
      (sin_le_of (hi := 0.5646) ?_ ?_ (by norm_num) (by norm_num)) (by norm_num) <;> norm_num at c1 c2 ⊢ <;> linarith
  split
  · next h =>
    obtain ⟨c1, c2⟩ := cast h
    refine key _ _ 3200 h (sin_ge_of (lo := 0.3479) (by norm_num) (by norm_num) ?_ h3 (by norm_num) (by norm_num))
      (sin_le_of (hi := 0.7101) ?_ ?_ (by norm_num) (by norm_num)) (by norm_num) <;> norm_num at c1 c2 ⊢ <;> linarith
  split
  · next h =>
    obtain ⟨c1, c2⟩ := cast h
    refine key _ _ 4000 h (sin_ge_of (lo := 0.3059) (by norm_num) (by norm_num) ?_ h3 (by norm_num) (by norm_num))
      (sin_le_of (hi := 0.7701) ?_ ?_ (by norm_num) (by norm_num)) (by norm_num) <;> norm_num at c1 c2 ⊢ <;> linarith
  split
  · next h =>
    obtain ⟨c1, c2⟩ := cast h
    refine key _ _ 7000 h (sin_ge_of (lo := 0.1509) (by norm_num) (by norm_num) ?_ h3 (by norm_num) (by norm_num))
      (sin_le_of' (hi := 1.0001) ?_ ?_ rfl (by norm_num) (by norm_num) (by norm_num)) (by norm_num) <;> norm_num at c1 c2 ⊢ <;> linarith
  split
  · next h =>
    obtain ⟨c1, c2⟩ := cast h
    refine key _ _ 9000 h (sin_ge_of (lo := 0.0509) (by norm_num) (by norm_num) ?_ h3 (by norm_num) (by norm_num))
      (sin_le_of' (hi := 1.2501) ?_ ?_ rfl (by norm_num) (by norm_num) (by norm_num)) (by norm_num) <;> norm_num at c1 c2 ⊢ <;> linarith
  split
  · next h =>
    obtain ⟨c1, c2⟩ := cast h
    refine key _ _ 9440 h (sin_ge_of (lo := 0.0289) (by norm_num) (by norm_num) ?_ h3 (by norm_num) (by norm_num))
      (sin_le_of' (hi := 1.3301) ?_ ?_ rfl (by norm_num) (by norm_num) (by norm_num)) (by norm_num) <;> norm_num at c1 c2 ⊢ <;> linarith
  split
  · next h =>
    obtain ⟨c1, c2⟩ := cast h
    refine key _ _ 9915 h (sin_ge_of (lo := 0.0044) (by norm_num) (by norm_num) ?_ h3 (by norm_num) (by norm_num))
      (sin_le_of' (hi := 1.4777) ?_ ?_ rfl (by norm_num) (by norm_num) (by norm_num)) (by norm_num) <;> norm_num at c1 c2 ⊢ <;> linarith
  · rw [abs_le]; norm_num; linarith

/-- Away from pi / 6 the number is not near 0. -/
theorem uBound_nonzero {r : Nat} (hr : r < 32768) (h : angle r < 500000 ∨ 550000 < angle r) : 1 / 100 ≤ |2 * |Real.sin r| - 1| := by
  obtain ⟨θ, e, h1, h2, h3⟩ := angle_spec hr
  generalize angle r = v at *
  rw [e]
  have hv : (0 : ℝ) ≤ v := by positivity
  rcases h with h | h
  · have a : (v : ℝ) ≤ 500000 := by exact_mod_cast h.le
    have s1 : |Real.sin θ| ≤ 0.49 := by
      rcases le_total 0 θ with h0 | h0
      · have g := sin_le_of (hi := 0.501) (c := 0.49) h0 (by norm_num at h2 ⊢; linarith) (by norm_num) (by norm_num)
        rw [abs_of_nonneg (Real.sin_nonneg_of_nonneg_of_le_pi h0 (by linarith [Real.pi_gt_three]))]
        exact g
      · have : |Real.sin θ| ≤ |θ| := Real.abs_sin_le_abs
        rw [abs_of_nonpos h0] at this
        norm_num at h1 this ⊢; linarith
    rw [abs_of_nonpos (by linarith)]
    linarith
  · have a : (550000 : ℝ) ≤ v := by exact_mod_cast h.le
    have g := sin_ge_of (lo := 0.5499) (c := 0.51) (θ := θ) (by norm_num) (by norm_num) (by norm_num at h1 ⊢; linarith) h3 (by norm_num) (by norm_num)
    rw [abs_of_nonneg (show 0 ≤ Real.sin θ by linarith), abs_of_nonneg (by linarith)]
    linarith

/-! ### The numbers drawn -/

theorem rnd_err_lt (f : Fmt) {x : ℚ} {k : ℤ} (h0 : 0 ≤ k) (h : |x| < 2 ^ (k + 1)) (hk : f.emin ≤ k - f.frac) : |rnd f x - x| ≤ 2 ^ (k - f.frac) / 2 := by
  refine (rnd_err f x).trans (div_le_div_of_nonneg_right ?_ (by norm_num))
  unfold quantum
  refine zpow_le_zpow_right₀ (by norm_num) (max_le ?_ hk)
  rcases eq_or_ne x 0 with rfl | hx
  · simp only [abs_zero, Int.log_zero_right]
    omega
  · have : Int.log 2 |x| < k + 1 := by
      by_contra hc
      have h1 : (2 : ℚ) ^ (k + 1) ≤ 2 ^ Int.log 2 |x| := zpow_le_zpow_right₀ (by norm_num) (by omega)
      have h2 := zpow_le_self (abs_pos.2 hx)
      linarith
    omega

theorem drawU_sin {L : Libm} (hL : GoodLibm L) {st : Rng} {now : Int} {r : Nat} (h : (randomU64 st now).2 = r) :
    |((drawU L st now).2 : ℝ) - (2 * |Real.sin r| - 1)| ≤ 1 / 2 ^ 19 := by
  have hr : r < 32768 := by rw [← h]; exact randomU64_lt _ _
  obtain ⟨f, hf, hn⟩ := drawU_near hL st now
  have e : f = rnd binary32 (rnd binary64 ((2 ^ 31 - 1 : Nat) * |rnd binary32 (L.sin r)|)) := by
    have := congrArg Prod.snd hf
    rw [← h]
    exact this.symm
  have s0 := hL.sin r (by omega)
  have q0 := abs_rnd_sin_le hL.sin (k := r) (by omega)
  obtain ⟨s, hs⟩ : ∃ s, s = L.sin r := ⟨_, rfl⟩
  rw [← hs] at s0 q0 e
  have hs2 : |s| < 2 := by
    rw [← Rat.cast_lt (K := ℝ)]
    push_cast
    have := abs_add_le ((s : ℝ) - Real.sin r) (Real.sin r)
    rw [sub_add_cancel] at this
    have h1 := Real.abs_sin_le_one r
    norm_num at s0
    linarith
  have q1 := rnd_abs_err hs2
  obtain ⟨q, hq⟩ : ∃ q, q = rnd binary32 s := ⟨_, rfl⟩
  rw [← hq] at q0 q1 e
  obtain ⟨p, hp⟩ : ∃ p, p = ((2 ^ 31 - 1 : Nat) : ℚ) * |q| := ⟨_, rfl⟩
  have hp0 : 0 ≤ p := by rw [hp]; positivity
  have hp1 : p ≤ 2 ^ 31 - 1 := by rw [hp]; push_cast; norm_num; linarith
  have p1 := rnd_err_lt binary64 (x := p) (k := 30) (by norm_num) (by rw [abs_of_nonneg hp0]; norm_num at hp1 ⊢; linarith) (by norm_num [binary64])
  rw [← hp] at e
  obtain ⟨p', hp'⟩ : ∃ p', p' = rnd binary64 p := ⟨_, rfl⟩
  rw [← hp'] at e p1
  have p1' := abs_le.1 p1
  have p2 := rnd_err_lt binary32 (x := p') (k := 31) (by norm_num) (by rw [abs_lt]; norm_num [binary64] at p1' hp1 ⊢; constructor <;> linarith) (by norm_num [binary32])
  rw [← e] at p2
  have p2' := abs_le.1 p2
  have t1 : |(|q| - |s|)| ≤ 1 / 2 ^ 24 := (abs_abs_sub_abs_le q s).trans q1
  have t2 : |(f / 2 ^ 31 - |s|)| ≤ 1 / 2 ^ 22 := by
    have t1' := abs_le.1 t1
    rw [abs_le]
    have hpp : p = (2 ^ 31 - 1) * |q| := by rw [hp]; push_cast; norm_num
    norm_num [binary64, binary32] at p1' p2' t1' hpp ⊢
    have := abs_nonneg q
    constructor <;> linarith
  have t3 : |(|(s : ℝ)| - |Real.sin r|)| ≤ 1 / 2 ^ 40 := (abs_abs_sub_abs_le _ _).trans s0
  have t2' : |((f : ℝ) / 2 ^ 31 - |(s : ℝ)|)| ≤ 1 / 2 ^ 22 := by
    have := (Rat.cast_le (K := ℝ)).2 t2
    push_cast at this
    exact this
  have hn' : |((drawU L st now).2 : ℝ) - (2 * (f / 2 ^ 31) - 1)| ≤ 1 / 2 ^ 22 := by
    have := (Rat.cast_le (K := ℝ)).2 hn
    push_cast at this
    exact this
  have a1 := abs_le.1 t3
  have a2 := abs_le.1 t2'
  have a3 := abs_le.1 hn'
  rw [abs_le]
  norm_num at a1 a2 a3 ⊢
  constructor <;> linarith

/-- Numbers with these angles make an accepted pair. -/
def goodAngles (a1 a2 : Nat) : Bool :=
  Nat.ble (uBound a1 ^ 2 + uBound a2 ^ 2) 99400000 && ((Nat.blt a1 500000 || Nat.blt 550000 a1) || (Nat.blt a2 500000 || Nat.blt 550000 a2))

/-- The pair of numbers made from the states `x` and the one after it is accepted, whatever the last bits of the C library's results are. -/
def goodPair (r1 r2 : Nat) : Bool := goodAngles (angle r1) (angle r2)

theorem pair_accepted {L : Libm} (hL : GoodLibm L) {st : Rng} {now : Int} {r1 r2 : Nat} (h1 : (randomU64 st now).2 = r1)
    (h2 : (randomU64 (drawU L st now).1 now).2 = r2) (hg : goodPair r1 r2 = true) :
    let w := rnd binary32 (rnd binary64 (L.pow2 (drawU L st now).2 + L.pow2 (drawU L (drawU L st now).1 now).2))
    ¬ (1 ≤ w ∨ w = 0) := by
  intro w
  have hr1 : r1 < 32768 := by rw [← h1]; exact randomU64_lt _ _
  have hr2 : r2 < 32768 := by rw [← h2]; exact randomU64_lt _ _
  have s1 := drawU_sin hL h1
  have s2 := drawU_sin hL h2
  have d1 := drawU_range hL st now
  have d2 := drawU_range hL (drawU L st now).1 now
  have b1 := uBound_spec hr1
  have b2 := uBound_spec hr2
  have hw : w = rnd binary32 (rnd binary64 (L.pow2 (drawU L st now).2 + L.pow2 (drawU L (drawU L st now).1 now).2)) := rfl
  generalize (drawU L st now).2 = u1 at *
  generalize (drawU L (drawU L st now).1 now).2 = u2 at *
  clear_value w
  unfold goodPair goodAngles at hg
  simp only [Bool.and_eq_true, Bool.or_eq_true, Nat.ble_eq, Nat.blt_eq] at hg
  obtain ⟨hg1, hg2⟩ := hg
  obtain ⟨y1, hy1⟩ : ∃ y, y = 2 * |Real.sin r1| - 1 := ⟨_, rfl⟩
  obtain ⟨y2, hy2⟩ : ∃ y, y = 2 * |Real.sin r2| - 1 := ⟨_, rfl⟩
  have hnz : ¬ (u1 = 0 ∧ u2 = 0) := by
    rintro ⟨rfl, rfl⟩
    rcases hg2 with hg2 | hg2
    · have := uBound_nonzero hr1 hg2
      rw [Rat.cast_zero, zero_sub, abs_neg] at s1
      norm_num at s1 this; linarith
    · have := uBound_nonzero hr2 hg2
      rw [Rat.cast_zero, zero_sub, abs_neg] at s2
      norm_num at s2 this; linarith
  rw [← hy1] at s1 b1
  rw [← hy2] at s2 b2
  obtain ⟨hs, hb⟩ := polar_sum hL hw hnz d1.1 d1.2 d2.1 d2.2
  have hp := hs.pos (by norm_num) (lt_of_lt_of_le (by norm_num) hb)
  have sq : ∀ {u y b : ℝ}, |u - y| ≤ 1 / 2 ^ 19 → |y| ≤ b → b ≤ 1 → u ^ 2 ≤ b ^ 2 + 1 / 2 ^ 17 := by
    intro u y b k1 k2 k3
    have k4 : |u| ≤ b + 1 / 2 ^ 19 := by
      have := abs_add_le (u - y) y
      rw [sub_add_cancel] at this
      linarith
    have k5 : 0 ≤ b := (abs_nonneg y).trans k2
    have k6 : u ^ 2 ≤ (b + 1 / 2 ^ 19) ^ 2 := by
      rw [← sq_abs u]
      exact pow_le_pow_left₀ (abs_nonneg _) k4 2
    nlinarith
  have le1 : ∀ v, (uBound v : ℝ) / 10000 ≤ 1 := by
    intro v
    have : uBound v ≤ 10000 := by unfold uBound; split_ifs <;> norm_num
    have : (uBound v : ℝ) ≤ 10000 := by exact_mod_cast this
    linarith
  have q1 := sq s1 b1 (le1 _)
  have q2 := sq s2 b2 (le1 _)
  have hg1' : (uBound (angle r1) : ℝ) ^ 2 + (uBound (angle r2) : ℝ) ^ 2 ≤ 99400000 := by exact_mod_cast hg1
  have sum : (u1 : ℝ) ^ 2 + (u2 : ℝ) ^ 2 ≤ 0.995 := by
    rw [div_pow] at q1 q2
    norm_num at q1 q2 ⊢
    linarith
  have hwle := hs.abs_le
  rw [abs_of_pos hp, abs_of_pos (lt_of_lt_of_le (by norm_num) hb)] at hwle
  rintro (hc | hc)
  · have : (1 : ℝ) ≤ w := by exact_mod_cast hc
    norm_num at sum hwle
    linarith
  · rw [hc] at hp
    norm_num at hp

/-! ### The loop -/

/-- The state of the generator before draw number `m`. -/
def rngAt (t : Int) : Nat → Rng
  | 0 => none
  | m + 1 => some (lcgState t m : Int)

theorem rngAt_zero (t : Int) : rngAt t 0 = none := rfl
theorem rngAt_succ (t : Int) (m : Nat) : rngAt t (m + 1) = some (lcgState t m : Int) := by rw [rngAt]
theorem drawU_fst (L : Libm) (st : Rng) (now : Int) : (drawU L st now).1 = (randomU64 st now).1 := by
  unfold drawU randomF32'
  dsimp only
theorem polar_succ (L : Libm) (now : Int) (k : Nat) (st : Rng) : polar L now (k + 1) st =
    if 1 ≤ rnd binary32 (rnd binary64 (L.pow2 (drawU L st now).2 + L.pow2 (drawU L (drawU L st now).1 now).2)) ∨
        rnd binary32 (rnd binary64 (L.pow2 (drawU L st now).2 + L.pow2 (drawU L (drawU L st now).1 now).2)) = 0 then
      polar L now k (drawU L (drawU L st now).1 now).1
    else .ok ((drawU L (drawU L st now).1 now).1, (drawU L st now).2, (drawU L (drawU L st now).1 now).2,
      rnd binary32 (rnd binary64 (L.pow2 (drawU L st now).2 + L.pow2 (drawU L (drawU L st now).1 now).2))) := by
  rw [polar]

theorem draws_rngAt (now : Nat → Int) (m : Nat) : (draws now m).1 = rngAt (now 0) m := by
  cases m with
  | zero => rfl
  | succ m => rw [rngAt_succ]; exact (draws_state now m).1

theorem randomU64_at {t now : Int} {m : Nat} (h : m = 0 → now = t) : randomU64 (rngAt t m) now = (rngAt t (m + 1), lcgOut (lcgState t m)) := by
  rw [randomU64_eq]
  have e : lcgFirst ((rngAt t m).getD now) = lcgState t m := by
    cases m with
    | zero =>
      rw [h rfl, lcgState_zero, rngAt_zero, Option.getD_none]
    | succ m =>
      rw [lcgState_succ, rngAt_succ, Option.getD_some]
      exact lcgFirst_of_lt (by have := lcgState_lt t m; omega)
  rw [e, rngAt_succ]

theorem drawU_at (L : Libm) {t now : Int} {m : Nat} (h : m = 0 → now = t) : (drawU L (rngAt t m) now).1 = rngAt t (m + 1) := by
  rw [drawU_fst, randomU64_at h]

/-- The pair beginning with draw number `m` is accepted. -/
def goodAt (t : Int) (m : Nat) : Bool := goodPair (lcgOut (lcgState t m)) (lcgOut (lcgState t (m + 1)))

theorem drawU_at2 (L : Libm) {t now : Int} {m : Nat} (h : m = 0 → now = t) : (drawU L (drawU L (rngAt t m) now).1 now).1 = rngAt t (m + 2) := by
  rw [drawU_at L h, drawU_at L (by omega)]

theorem polar_ends {L : Libm} (hL : GoodLibm L) {t now : Int} : ∀ {n m k : Nat}, (m = 0 → now = t) → goodAt t (m + 2 * n) = true → n < k →
    ∃ r, polar L now k (rngAt t m) = .ok r := by
  intro n m k
  induction k generalizing n m with
  | zero => intro _ _ hk; omega
  | succ k ih =>
    intro h hg hk
    rw [polar_succ, drawU_at2 L h]
    split
    · next hc =>
      cases n with
      | zero =>
        exfalso
        have h1 : (randomU64 (rngAt t m) now).2 = lcgOut (lcgState t m) := by rw [randomU64_at h]
        have h2 : (randomU64 (drawU L (rngAt t m) now).1 now).2 = lcgOut (lcgState t (m + 1)) := by rw [drawU_at L h, randomU64_at (by omega)]
        exact pair_accepted hL h1 h2 hg hc
      | succ n => exact ih (n := n) (by omega) (by rw [show m + 2 + 2 * n = m + 2 * (n + 1) by omega]; exact hg) (by omega)
    · exact ⟨_, rfl⟩

/-! ### Every orbit has an accepted pair -/

instance fact_65537 : Fact (Nat.Prime 65537) := ⟨by norm_num⟩

theorem order_214013 : orderOf (214013 : ZMod 65537) = 65536 := by
  have h1 : (214013 : ZMod 65537) ^ 65536 = 1 := by
    have h := dvd_pow_sub lcg_pow16
    simp only [Nat.cast_ofNat, Nat.cast_one] at h
    have h2 : (65537 : Int) ∣ 214013 ^ 65536 - 1 := Dvd.dvd.trans (by decide) h
    have h3 := (ZMod.intCast_zmod_eq_zero_iff_dvd (214013 ^ 65536 - 1) 65537).2 h2
    rw [Int.cast_sub, Int.cast_pow, Int.cast_one, sub_eq_zero] at h3
    exact h3
  have h2 : (214013 : ZMod 65537) ^ 32768 ≠ 1 := by
    intro hc
    have h := dvd_pow_sub lcg_pow15
    have h3 := (ZMod.intCast_zmod_eq_zero_iff_dvd (214013 ^ 32768 - 65536) 65537).2 h
    rw [Int.cast_sub, Int.cast_pow, sub_eq_zero] at h3
    have h4 : ((65536 : Int) : ZMod 65537) = 1 := h3.symm.trans hc
    have h5 : ((65536 : Int) : ZMod 65537) ≠ 1 := by decide
    exact h5 h4
  have := orderOf_eq_prime_pow (p := 2) (n := 15) (x := (214013 : ZMod 65537)) h2 h1
  rw [this]; norm_num

theorem generates {d : Int} (h : ¬ (65537 : Int) ∣ d) : ∃ n, n < 65536 ∧ (65537 : Int) ∣ 214013 ^ n * d - 1 := by
  have hd : (d : ZMod 65537) ≠ 0 := by
    intro hc
    exact h ((ZMod.intCast_zmod_eq_zero_iff_dvd d 65537).1 hc)
  have ha : (214013 : ZMod 65537) ≠ 0 := by decide
  obtain ⟨u, hu⟩ : ∃ u : (ZMod 65537)ˣ, (u : ZMod 65537) = 214013 := ⟨Units.mk0 _ ha, rfl⟩
  obtain ⟨v, hv⟩ : ∃ v : (ZMod 65537)ˣ, (v : ZMod 65537) = d := ⟨Units.mk0 _ hd, rfl⟩
  have ho : orderOf u = 65536 := by rw [← orderOf_units, hu, order_214013]
  have htop : Subgroup.zpowers u = ⊤ := by
    apply Subgroup.eq_top_of_card_eq
    rw [Nat.card_zpowers, ho, Nat.card_eq_fintype_card, ZMod.card_units]
  have hm : v⁻¹ ∈ Submonoid.powers u := by
    rw [mem_powers_iff_mem_zpowers, htop]
    trivial
  rw [mem_powers_iff_mem_range_orderOf, ho] at hm
  simp only [Finset.mem_image, Finset.mem_range] at hm
  obtain ⟨n, hn, e⟩ := hm
  refine ⟨n, hn, ?_⟩
  apply (ZMod.intCast_zmod_eq_zero_iff_dvd _ 65537).1
  have e2 : u ^ n * v = 1 := by rw [e, inv_mul_cancel]
  have e3 := congrArg (fun z : (ZMod 65537)ˣ => (z : ZMod 65537)) e2
  simp only [Units.val_mul, Units.val_pow_eq_pow_val, hu, hv, Units.val_one] at e3
  rw [Int.cast_sub, Int.cast_mul, Int.cast_pow, Int.cast_one, sub_eq_zero]
  exact e3
/-- `f x`, where `x` is evaluated first. -/
def force {α : Type} (x : Nat) (f : Nat → α) : α :=
  match x with
  | 0 => f 0
  | y + 1 => f (y + 1)

theorem force_eq {α : Type} (x : Nat) (f : Nat → α) : force x f = f x := by
  cases x <;> rfl

/-- `angle` as the kernel computes it best. -/
def angleF (r : Nat) : Nat :=
  force (r * 100000000000000000000 % 314159265358979323846) fun x =>
    cond (Nat.ble x (314159265358979323846 - x)) (x / 100000000000000) ((314159265358979323846 - x) / 100000000000000)

theorem angleF_eq (r : Nat) : angleF r = angle r := by
  unfold angleF angle
  rw [force_eq]
  dsimp only
  generalize r * 100000000000000000000 % 314159265358979323846 = x
  rcases h : Nat.ble x (314159265358979323846 - x) with _ | _
  · rw [min_eq_right, cond_false]
    have : ¬ x ≤ 314159265358979323846 - x := fun hc => by rw [Nat.ble_eq_true_of_le hc] at h; cases h
    omega
  · rw [min_eq_left, cond_true]
    exact Nat.le_of_ble_eq_true h

/-- `uBound` as the kernel computes it best. -/
def uBoundF (v : Nat) : Nat :=
  cond (Nat.ble 484000 v && Nat.ble v 564500) 800 <|
  cond (Nat.ble 348000 v && Nat.ble v 710000) 3200 <|
  cond (Nat.ble 306000 v && Nat.ble v 770000) 4000 <|
  cond (Nat.ble 151000 v && Nat.ble v 1000000) 7000 <|
  cond (Nat.ble 51000 v && Nat.ble v 1250000) 9000 <|
  cond (Nat.ble 29000 v && Nat.ble v 1330000) 9440 <|
  cond (Nat.ble 4500 v && Nat.ble v 1477600) 9915 10000

theorem uBoundF_eq (v : Nat) : uBoundF v = uBound v := by
  unfold uBoundF uBound
  simp only [cond_eq_ite, Bool.and_eq_true, Nat.ble_eq]

/-- One of the next `n` pairs is accepted. -/
def acceptWithin : Nat → Nat → Bool
  | 0, _ => false
  | n + 1, x => force (lcgStep x) fun x1 => force (angleF (lcgOut x)) fun a1 => force (angleF (lcgOut x1)) fun a2 =>
    (Nat.ble (uBoundF a1 ^ 2 + uBoundF a2 ^ 2) 99400000 && ((Nat.blt a1 500000 || Nat.blt 550000 a1) || (Nat.blt a2 500000 || Nat.blt 550000 a2))) ||
      force (lcgStep x1) fun x2 => acceptWithin n x2

theorem acceptWithin_succ (n x : Nat) : acceptWithin (n + 1) x = (goodPair (lcgOut x) (lcgOut (lcgStep x)) || acceptWithin n (lcgStep (lcgStep x))) := by
  rw [acceptWithin]
  simp only [force_eq, angleF_eq, uBoundF_eq]
  unfold goodPair goodAngles
  with_reducible rfl

theorem acceptWithin_spec {t : Int} {n m : Nat} (h : acceptWithin n (lcgState t m) = true) : ∃ i, i < n ∧ goodAt t (m + 2 * i) = true := by
  induction n generalizing m with
  | zero =>
    rw [acceptWithin] at h
    exact absurd h Bool.false_ne_true
  | succ n ih =>
    rw [acceptWithin_succ, Bool.or_eq_true, ← lcgState_succ, ← lcgState_succ] at h
    rcases h with h | h
    · refine ⟨0, by omega, ?_⟩
      rw [Nat.mul_zero, Nat.add_zero]
      unfold goodAt
      exact h
    · obtain ⟨i, hi, g⟩ := ih h
      exact ⟨i + 1, by omega, by rw [show m + 2 * (i + 1) = m + 1 + 1 + 2 * i by omega]; exact g⟩

/-- `p` holds for all numbers from `a` to `a + n - 1`. -/
def allFrom (p : Nat → Bool) (a : Nat) : Nat → Bool
  | 0 => true
  | n + 1 => force (a + n) fun m => p m && allFrom p a n

theorem allFrom_spec {p : Nat → Bool} {a n j : Nat} (h : allFrom p a n = true) (h1 : a ≤ j) (h2 : j < a + n) : p j = true := by
  induction n with
  | zero => omega
  | succ n ih =>
    rw [allFrom, force_eq, Bool.and_eq_true] at h
    rcases eq_or_ne j (a + n) with rfl | hj
    · exact h.1
    · exact ih h.2 (by omega)

/-- The states of the short cycles lead to an accepted pair. -/
def shortOk (j : Nat) : Bool := Nat.beq j 3383 || force (166260 + 1114129 * j) (acceptWithin 14)

/-- The representatives of the long cycles, and the states after them, lead to an accepted pair. -/
def longOk (j : Nat) : Bool := force (690557 + 1114129 * j) fun x => acceptWithin 12 x && force (lcgStep x) (acceptWithin 12)

theorem short_0 : allFrom shortOk 0 500 = true := by decide +kernel
theorem short_1 : allFrom shortOk 500 500 = true := by decide +kernel
theorem short_2 : allFrom shortOk 1000 500 = true := by decide +kernel
theorem short_3 : allFrom shortOk 1500 500 = true := by decide +kernel
theorem short_4 : allFrom shortOk 2000 500 = true := by decide +kernel
theorem short_5 : allFrom shortOk 2500 500 = true := by decide +kernel
theorem short_6 : allFrom shortOk 3000 500 = true := by decide +kernel
theorem short_7 : allFrom shortOk 3500 355 = true := by decide +kernel
theorem long_0 : allFrom longOk 0 500 = true := by decide +kernel
theorem long_1 : allFrom longOk 500 500 = true := by decide +kernel
theorem long_2 : allFrom longOk 1000 500 = true := by decide +kernel
theorem long_3 : allFrom longOk 1500 500 = true := by decide +kernel
theorem long_4 : allFrom longOk 2000 500 = true := by decide +kernel
theorem long_5 : allFrom longOk 2500 500 = true := by decide +kernel
theorem long_6 : allFrom longOk 3000 500 = true := by decide +kernel
theorem long_7 : allFrom longOk 3500 355 = true := by decide +kernel

theorem accept_short {j : Nat} (hj : j < 3855) (h : j ≠ 3383) : acceptWithin 14 (166260 + 1114129 * j) = true := by
  have key : shortOk j = true := by
    rcases lt_or_ge j 500 with h0 | h0
    · exact allFrom_spec short_0 (by omega) (by omega)
    rcases lt_or_ge j 1000 with h1 | h1
    · exact allFrom_spec short_1 (by omega) (by omega)
    rcases lt_or_ge j 1500 with h2 | h2
    · exact allFrom_spec short_2 (by omega) (by omega)
    rcases lt_or_ge j 2000 with h3 | h3
    · exact allFrom_spec short_3 (by omega) (by omega)
    rcases lt_or_ge j 2500 with h4 | h4
    · exact allFrom_spec short_4 (by omega) (by omega)
    rcases lt_or_ge j 3000 with h5 | h5
    · exact allFrom_spec short_5 (by omega) (by omega)
    rcases lt_or_ge j 3500 with h6 | h6
    · exact allFrom_spec short_6 (by omega) (by omega)
    rcases lt_or_ge j 3855 with h7 | h7
    · exact allFrom_spec short_7 (by omega) (by omega)
    omega
  unfold shortOk at key
  rw [Bool.or_eq_true, force_eq] at key
  exact key.resolve_left fun hc => h (Nat.eq_of_beq_eq_true hc)

theorem accept_long {j : Nat} (hj : j < 3855) : acceptWithin 12 (690557 + 1114129 * j) = true ∧ acceptWithin 12 (lcgStep (690557 + 1114129 * j)) = true := by
  have key : longOk j = true := by
    rcases lt_or_ge j 500 with h0 | h0
    · exact allFrom_spec long_0 (by omega) (by omega)
    rcases lt_or_ge j 1000 with h1 | h1
    · exact allFrom_spec long_1 (by omega) (by omega)
    rcases lt_or_ge j 1500 with h2 | h2
    · exact allFrom_spec long_2 (by omega) (by omega)
    rcases lt_or_ge j 2000 with h3 | h3
    · exact allFrom_spec long_3 (by omega) (by omega)
    rcases lt_or_ge j 2500 with h4 | h4
    · exact allFrom_spec long_4 (by omega) (by omega)
    rcases lt_or_ge j 3000 with h5 | h5
    · exact allFrom_spec long_5 (by omega) (by omega)
    rcases lt_or_ge j 3500 with h6 | h6
    · exact allFrom_spec long_6 (by omega) (by omega)
    rcases lt_or_ge j 3855 with h7 | h7
    · exact allFrom_spec long_7 (by omega) (by omega)
    omega
  unfold longOk at key
  rw [force_eq, Bool.and_eq_true, force_eq] at key
  exact key

theorem good_ahead {t : Int} (h0 : 0 ≤ t) (h1 : t < 2 ^ 46) (hs : ¬ (252645135 : Int) ∣ t - 232232777) (m : Nat) :
    ∃ i, i < 32790 ∧ goodAt t (m + 2 * i) = true := by
  by_cases h : (65537 : Int) ∣ lcgDiff t m
  · have h2 : (1114129 : Int) ∣ lcgDiff t m := by
      rw [show (1114129 : Int) = 65537 * 17 by norm_num]
      exact IsCoprime.mul_dvd (by rw [Int.isCoprime_iff_gcd_eq_one]; decide) h (lcgDiff_17' h0 h1 m)
    have hb : ¬ (252645135 : Int) ∣ lcgDiff t m := by rw [lcgDiff_big h0 h1]; exact hs
    obtain ⟨j, hj, hne, ej⟩ : ∃ j, j < 3855 ∧ j ≠ 3383 ∧ lcgState t m = 166260 + 1114129 * j := by
      have hx := lcgState_lt t m
      unfold lcgDiff at h2 hb
      generalize lcgState t m = x at *
      have e : x = 166260 + 1114129 * ((x - 166260) / 1114129) := by clear hb; omega
      refine ⟨(x - 166260) / 1114129, by clear hb; omega, ?_, e⟩
      intro hc
      rw [hc] at e
      apply hb
      rw [e]
      decide
    have := accept_short hj hne
    rw [← ej] at this
    obtain ⟨i, hi, g⟩ := acceptWithin_spec this
    exact ⟨i, by omega, g⟩
  · obtain ⟨n, hn, hd⟩ := generates h
    have h2 : (65537 : Int) ∣ lcgDiff t (m + n) - 1 := by
      have h3 := lcgDiff_dvd (t := t) (k := m) (n := n) (m := 65537) (by decide)
      have := dvd_sub hd h3
      rw [show 214013 ^ n * lcgDiff t m - 1 - (214013 ^ n * lcgDiff t m - lcgDiff t (m + n)) = lcgDiff t (m + n) - 1 by ring] at this
      exact this
    have h17 := lcgDiff_17' h0 h1 (m + n)
    obtain ⟨j, hj, ej⟩ : ∃ j, j < 3855 ∧ lcgState t (m + n) = 690557 + 1114129 * j := by
      have hx := lcgState_lt t (m + n)
      unfold lcgDiff at h2 h17
      generalize lcgState t (m + n) = x at *
      have h4 : (1114129 : Int) ∣ (x : Int) - 690557 := by
        rw [show (1114129 : Int) = 65537 * 17 by norm_num]
        refine IsCoprime.mul_dvd (by rw [Int.isCoprime_iff_gcd_eq_one]; decide) ?_ ?_
        · rw [dvd_iff_dvd_of_dvd_sub (c := (x : Int) - 3769264667 - 1)]
          · exact h2
          · rw [show (x : Int) - 690557 - (x - 3769264667 - 1) = 3768574111 by ring]; decide
        · rw [dvd_iff_dvd_of_dvd_sub (c := (x : Int) - 3769264667)]
          · exact h17
          · rw [show (x : Int) - 690557 - (x - 3769264667) = 3768574110 by ring]; decide
      clear h2 h17
      exact ⟨(x - 690557) / 1114129, by omega, by omega⟩
    obtain ⟨g1, g2⟩ := accept_long hj
    rw [← ej] at g1 g2
    rw [← lcgState_succ] at g2
    rcases Nat.even_or_odd' n with ⟨q, hq | hq⟩
    · obtain ⟨i, hi, g⟩ := acceptWithin_spec g1
      exact ⟨q + i, by omega, by rw [show m + 2 * (q + i) = m + n + 2 * i by omega]; exact g⟩
    · obtain ⟨i, hi, g⟩ := acceptWithin_spec g2
      exact ⟨q + 1 + i, by omega, by rw [show m + 2 * (q + 1 + i) = m + n + 1 + 2 * i by omega]; exact g⟩

/-! ### The generator that is stuck -/

theorem sin_16724 : 0.96 ≤ |Real.sin (16724 : ℕ)| := by
  obtain ⟨θ, e, h1, h2, h3⟩ := angle_spec (r := 16724) (by norm_num)
  rw [e]
  have ha : angle 16724 = 1302304 := by decide +kernel
  rw [ha] at h1 h2
  have hp1 := Real.pi_gt_d4
  have hp2 := Real.pi_lt_d4
  have e2 : Real.sin θ = Real.cos (Real.pi / 2 - θ) := by rw [Real.cos_pi_div_two_sub]
  have b := Real.one_sub_sq_div_two_le_cos (x := Real.pi / 2 - θ)
  have hx : (Real.pi / 2 - θ) ^ 2 ≤ 0.27 ^ 2 := by
    apply pow_le_pow_left₀ <;> norm_num at h1 h2 hp1 hp2 ⊢ <;> linarith
  have : 0.96 ≤ Real.sin θ := by rw [e2]; norm_num at hx ⊢; linarith
  exact this.trans (le_abs_self _)

theorem polar_hangs {L : Libm} (hL : GoodLibm L) {t now : Int} (h0 : 0 ≤ t) (h1 : t < 2 ^ 46) (hs : (252645135 : Int) ∣ t - 232232777) :
    ∀ {k m : Nat}, (m = 0 → now = t) → polar L now k (rngAt t m) = .fuel := by
  intro k
  induction k with
  | zero => intro m _; rfl
  | succ k ih =>
    intro m h
    have out : ∀ i, lcgOut (lcgState t i) = 16724 := fun i => by rw [lcg_fixed h0 h1 hs]; decide
    have r1 : (randomU64 (rngAt t m) now).2 = 16724 := by rw [randomU64_at h]; exact out m
    have r2 : (randomU64 (drawU L (rngAt t m) now).1 now).2 = 16724 := by rw [drawU_at L h, randomU64_at (by omega)]; exact out (m + 1)
    have s1 := drawU_sin hL r1
    have s2 := drawU_sin hL r2
    have d1 := drawU_range hL (rngAt t m) now
    have d2 := drawU_range hL (drawU L (rngAt t m) now).1 now
    rw [polar_succ, drawU_at2 L h]
    generalize (drawU L (rngAt t m) now).2 = u1 at *
    generalize (drawU L (drawU L (rngAt t m) now).1 now).2 = u2 at *
    have hsin := sin_16724
    have g : ∀ {u : ℝ}, |u - (2 * |Real.sin (16724 : ℕ)| - 1)| ≤ 1 / 2 ^ 19 → 0.9 ≤ u := by
      intro u hu
      have := (abs_le.1 hu).1
      norm_num at this hsin ⊢
      linarith
    have g1 := g s1
    have g2 := g s2
    have hnz : ¬ (u1 = 0 ∧ u2 = 0) := by
      rintro ⟨rfl, _⟩
      norm_num at g1
    obtain ⟨hw, hb⟩ := polar_sum hL rfl hnz d1.1 d1.2 d2.1 d2.2
    have hp := hw.pos (by norm_num) (lt_of_lt_of_le (by norm_num) hb)
    have hle := hw.le_abs
    rw [abs_of_pos hp, abs_of_pos (lt_of_lt_of_le (by norm_num) hb)] at hle
    have sum : (1.6 : ℝ) ≤ (u1 : ℝ) ^ 2 + (u2 : ℝ) ^ 2 := by norm_num at g1 g2 ⊢; nlinarith
    rw [if_pos]
    · exact ih (by omega)
    · left
      rw [← Rat.cast_le (K := ℝ)]
      push_cast
      norm_num at hle sum ⊢
      linarith

/-! ### Theorems -/

/-- **C96** In every second but one of 252645135, and however many numbers have been drawn before, the function returns: at most 32790 pairs are drawn.  (Of the
loop only the number of passes is bounded by `k`.) -/
theorem C96_returns {L : Libm} (hL : GoodLibm L) (now : Nat → Int) (h0 : 0 ≤ now 0) (h1 : now 0 < 2 ^ 46)
    (hs : ¬ (252645135 : Int) ∣ now 0 - 232232777) (n : Nat) (call : Bool) (x2 mu std : ℚ) {k : Nat} (hk : 32790 ≤ k) :
    ∃ st r, randomF32Normal L k ⟨call, x2, (draws now n).1⟩ (now n) mu std = .ok (st, r) := by
  cases call with
  | true => exact ⟨_, _, rfl⟩
  | false =>
    obtain ⟨i, hi, g⟩ := good_ahead h0 h1 hs n
    obtain ⟨⟨a, b, c, d⟩, e⟩ := polar_ends hL (t := now 0) (now := now n) (n := i) (m := n) (k := k) (by rintro rfl; rfl) g (by omega)
    rw [← draws_rngAt] at e
    unfold randomF32Normal
    dsimp only
    rw [if_neg (by decide), e, bind_ok]
    exact ⟨_, _, rfl⟩

/-- **C96** In the remaining second a call that has no stored number never returns, whatever has been drawn before and however many passes are made. -/
theorem C96_hangs {L : Libm} (hL : GoodLibm L) (now : Nat → Int) (h0 : 0 ≤ now 0) (h1 : now 0 < 2 ^ 46)
    (hs : (252645135 : Int) ∣ now 0 - 232232777) (n : Nat) (x2 mu std : ℚ) (k : Nat) :
    randomF32Normal L k ⟨false, x2, (draws now n).1⟩ (now n) mu std = .fuel := by
  have e := polar_hangs hL h0 h1 hs (k := k) (m := n) (now := now n) (by rintro rfl; rfl)
  rw [← draws_rngAt] at e
  unfold randomF32Normal
  dsimp only
  rw [if_neg (by decide), e]
  rfl

/-- An ordinary second. -/
example {L : Libm} (hL : GoodLibm L) (mu std : ℚ) : ∃ st r, randomF32Normal L 40000 {} 1700000000 mu std = .ok (st, r) :=
  C96_returns hL (fun _ => 1700000000) (by decide) (by decide) (by decide) 0 _ _ mu std (by decide)

/-- 24 May 2025, 16:19:47. -/
example {L : Libm} (hL : GoodLibm L) (mu std : ℚ) (k : Nat) : randomF32Normal L k {} 1748103587 mu std = .fuel :=
  C96_hangs hL (fun _ => 1748103587) (by decide) (by decide) (by decide) 0 _ mu std k

end Vita
