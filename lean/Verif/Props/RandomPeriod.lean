import Verif.Props.Math
import Mathlib.Data.ZMod.Basic
import Mathlib.FieldTheory.Finite.Basic
import Mathlib.GroupTheory.OrderOfElement
import Mathlib.Tactic.NormNum.Prime
/-!
# Property C95: how often the random generator repeats itself
-/

namespace Vita
open Out Math

/-! ### Statement -/

/-- The result of call number `k` (from 0) of `vt_math_random_u64` when the clock shows `now 0`, `now 1`, … at the calls. -/
def nthRandom (now : Nat → Int) (k : Nat) : Nat := (draws now (k + 1)).2.getD k 0

/-- The sequence `s` has the period `p` from some place on. -/
def HasPeriod (s : Nat → Nat) (p : Nat) : Prop := 0 < p ∧ ∃ n, ∀ k, n ≤ k → s (k + p) = s k

/-! ### The states -/

/-- One step on states below 2³² - 1. -/
def lcgStep (x : Nat) : Nat := (214013 * x + 2531011) % 4294967295

/-- The result made from a state: bits 15 to 29. -/
def lcgOut (x : Nat) : Nat := x / 2 ^ 15 % 2 ^ 15

/-- The state after the first call. -/
def lcgFirst (t : Int) : Nat := (wadd (wmul 0x343FD (t % 2 ^ 64).toNat) 0x269EC3) % 0xFFFFFFFF

theorem lcg_mask (x : Nat) : (x &&& 0x3FFF8000) >>> 15 = lcgOut x := by
  rw [show (0x3FFF8000 : Nat) = (2 ^ 15 - 1) <<< 15 by decide, Nat.shiftRight_and_distrib, Nat.shiftLeft_shiftRight, Nat.and_two_pow_sub_one_eq_mod,
    Nat.shiftRight_eq_div_pow, lcgOut]

theorem lcg_lt (t : Int) : lcgFirst t < 4294967295 := Nat.mod_lt _ (by decide)
theorem lcgStep_lt (x : Nat) : lcgStep x < 4294967295 := Nat.mod_lt _ (by decide)

theorem lcgFirst_of_lt {x : Nat} (h : x < 2 ^ 46) : lcgFirst (x : Int) = lcgStep x := by
  have e : ((x : Int) % 2 ^ 64).toNat = x := by
    rw [Int.emod_eq_of_lt (by omega) (by omega)]; rfl
  unfold lcgFirst lcgStep
  rw [e]
  have h1 : wmul 0x343FD x = 214013 * x := by unfold wmul; exact Nat.mod_eq_of_lt (by omega)
  have h2 : wadd (214013 * x) 0x269EC3 = 214013 * x + 2531011 := by unfold wadd; exact Nat.mod_eq_of_lt (by omega)
  rw [h1, h2]

/-- The state after call number `k`. -/
def lcgState (t : Int) (k : Nat) : Nat := lcgStep^[k] (lcgFirst t)

theorem lcgState_succ (t : Int) (k : Nat) : lcgState t (k + 1) = lcgStep (lcgState t k) := by
  unfold lcgState
  rw [Function.iterate_succ_apply']

theorem lcgState_zero (t : Int) : lcgState t 0 = lcgFirst t := by
  unfold lcgState
  rw [Function.iterate_zero, id]

theorem lcgState_lt (t : Int) (k : Nat) : lcgState t k < 4294967295 := by
  cases k with
  | zero => rw [lcgState_zero]; exact lcg_lt t
  | succ k => rw [lcgState_succ]; exact lcgStep_lt _

theorem randomU64_eq (st : Rng) (n : Int) : randomU64 st n = (some (lcgFirst (st.getD n) : Int), lcgOut (lcgFirst (st.getD n))) := by
  rw [← lcg_mask]
  unfold randomU64 lcgFirst
  with_reducible rfl

theorem draws_state (now : Nat → Int) (k : Nat) : (draws now (k + 1)).1 = some (lcgState (now 0) k : Int) ∧ (draws now (k + 1)).2.length = k + 1 ∧
    (draws now (k + 1)).2.getD k 0 = lcgOut (lcgState (now 0) k) := by
  induction k with
  | zero =>
    have e : draws now 1 = ((randomU64 none (now 0)).1, [] ++ [(randomU64 none (now 0)).2]) := rfl
    rw [Nat.zero_add, e, randomU64_eq]
    rw [Option.getD_none, lcgState_zero]
    refine ⟨?_, ?_, ?_⟩
    · with_reducible rfl
    · with_reducible simp only [List.nil_append, List.length_singleton]
    · simp only [List.nil_append, List.getD_cons_zero]
  | succ k ih =>
    have e1 : draws now (k + 1 + 1) = ((Math.randomU64 (draws now (k + 1)).1 (now (k + 1))).1,
      (draws now (k + 1)).2 ++ [(Math.randomU64 (draws now (k + 1)).1 (now (k + 1))).2]) := rfl
    have e2 : ∀ n, Math.randomU64 (some (lcgState (now 0) k : Int)) n = (some (lcgState (now 0) (k + 1) : Int), lcgOut (lcgState (now 0) (k + 1))) := by
      intro n
      have h := lcgFirst_of_lt (x := lcgState (now 0) k) (by have := lcgState_lt (now 0) k; omega)
      rw [lcgState_succ, ← h, randomU64_eq, Option.getD_some]
    rw [e1, ih.1, e2]
    refine ⟨by with_reducible rfl, by simp only [List.length_append, ih.2.1, List.length_singleton], ?_⟩
    rw [List.getD_eq_getElem?_getD, List.getElem?_append_right (by omega), ih.2.1]
    simp

theorem nthRandom_eq (now : Nat → Int) (k : Nat) : nthRandom now k = lcgOut (lcgState (now 0) k) := (draws_state now k).2.2

/-- Every further state is multiplied by 214013 as seen from the fixed point. -/
theorem lcgState_add (t : Int) (k n : Nat) :
    (lcgState t (k + n) : Int) - 3769264667 ≡ 214013 ^ n * ((lcgState t k : Int) - 3769264667) [ZMOD 4294967295] := by
  induction n with
  | zero => simp
  | succ n ih =>
    rw [← Nat.add_assoc, lcgState_succ]
    have h1 : (lcgStep (lcgState t (k + n)) : Int) ≡ 214013 * (lcgState t (k + n)) + 2531011 [ZMOD 4294967295] := by
      unfold lcgStep
      push_cast
      exact Int.mod_modEq _ _
    have h2 : (214013 * (3769264667 : Int) + 2531011) ≡ 3769264667 [ZMOD 4294967295] := by decide
    calc (lcgStep (lcgState t (k + n)) : Int) - 3769264667
        ≡ (214013 * (lcgState t (k + n)) + 2531011) - (214013 * (3769264667 : Int) + 2531011) [ZMOD 4294967295] := h1.sub h2.symm
      _ = 214013 * ((lcgState t (k + n) : Int) - 3769264667) := by ring
      _ ≡ 214013 * (214013 ^ n * ((lcgState t k : Int) - 3769264667)) [ZMOD 4294967295] := ih.mul_left _
      _ = 214013 ^ (n + 1) * ((lcgState t k : Int) - 3769264667) := by ring

theorem lcgState_17 (t : Int) (k : Nat) : (17 : Int) ∣ (lcgState t (k + 1) : Int) - 3769264667 := by
  have h := (lcgState_add t k 1).dvd
  have h1 : (17 : Int) ∣ 214013 ^ 1 * ((lcgState t k : Int) - 3769264667) - ((lcgState t (k + 1) : Int) - 3769264667) :=
    Dvd.dvd.trans (by decide) h
  have h2 : (17 : Int) ∣ 214013 ^ 1 * ((lcgState t k : Int) - 3769264667) := Dvd.dvd.mul_right (by decide) _
  have := h2.sub h1
  simpa using this

theorem lcg_eq_of_modEq {x y : Nat} (hx : x < 4294967295) (hy : y < 4294967295) (h : (x : Int) - 3769264667 ≡ (y : Int) - 3769264667 [ZMOD 4294967295]) :
    x = y := by
  have h' : (x : Int) ≡ y [ZMOD 4294967295] := by simpa using h.add_right 3769264667
  have := Int.ModEq.eq h'
  rw [Int.emod_eq_of_lt (by omega) (by omega), Int.emod_eq_of_lt (by omega) (by omega)] at this
  exact_mod_cast this

theorem sq_step {a b b' m e e' : Nat} (h : a ^ e % m = b) (he : e' = 2 * e) (h' : b * b % m = b') : a ^ e' % m = b' := by
  rw [he, two_mul, pow_add, Nat.mul_mod, h, h']

theorem lcg_pow16 : 214013 ^ 65536 % 252645135 = 1 := by
  have h0 : 214013 ^ 1 % 252645135 = 214013 := by norm_num
  have h1 : 214013 ^ 2 % 252645135 = 72794734 := sq_step h0 (by norm_num) (by norm_num)
  have h2 : 214013 ^ 4 % 252645135 = 5401 := sq_step h1 (by norm_num) (by norm_num)
  have h3 : 214013 ^ 8 % 252645135 = 29170801 := sq_step h2 (by norm_num) (by norm_num)
  have h4 : 214013 ^ 16 % 252645135 = 35917291 := sq_step h3 (by norm_num) (by norm_num)
  have h5 : 214013 ^ 32 % 252645135 = 4699246 := sq_step h4 (by norm_num) (by norm_num)
  have h6 : 214013 ^ 64 % 252645135 = 212298706 := sq_step h5 (by norm_num) (by norm_num)
  have h7 : 214013 ^ 128 % 252645135 = 41799766 := sq_step h6 (by norm_num) (by norm_num)
  have h8 : 214013 ^ 256 % 252645135 = 203729041 := sq_step h7 (by norm_num) (by norm_num)
  have h9 : 214013 ^ 512 % 252645135 = 116436421 := sq_step h8 (by norm_num) (by norm_num)
  have h10 : 214013 ^ 1024 % 252645135 = 185305996 := sq_step h9 (by norm_num) (by norm_num)
  have h11 : 214013 ^ 2048 % 252645135 = 122161096 := sq_step h10 (by norm_num) (by norm_num)
  have h12 : 214013 ^ 4096 % 252645135 = 94782886 := sq_step h11 (by norm_num) (by norm_num)
  have h13 : 214013 ^ 8192 % 252645135 = 7925881 := sq_step h12 (by norm_num) (by norm_num)
  have h14 : 214013 ^ 16384 % 252645135 = 134743816 := sq_step h13 (by norm_num) (by norm_num)
  have h15 : 214013 ^ 32768 % 252645135 = 65536 := sq_step h14 (by norm_num) (by norm_num)
  have h16 : 214013 ^ 65536 % 252645135 = 1 := sq_step h15 (by norm_num) (by norm_num)
  exact h16

theorem lcg_pow15 : 214013 ^ 32768 % 65537 = 65536 := by
  have h0 : 214013 ^ 1 % 65537 = 17402 := by norm_num
  have h1 : 214013 ^ 2 % 65537 = 48664 := sq_step h0 (by norm_num) (by norm_num)
  have h2 : 214013 ^ 4 % 65537 = 5401 := sq_step h1 (by norm_num) (by norm_num)
  have h3 : 214013 ^ 8 % 65537 = 6836 := sq_step h2 (by norm_num) (by norm_num)
  have h4 : 214013 ^ 16 % 65537 = 3015 := sq_step h3 (by norm_num) (by norm_num)
  have h5 : 214013 ^ 32 % 65537 = 46119 := sq_step h4 (by norm_num) (by norm_num)
  have h6 : 214013 ^ 64 % 65537 = 24363 := sq_step h5 (by norm_num) (by norm_num)
  have h7 : 214013 ^ 128 % 65537 = 52697 := sq_step h6 (by norm_num) (by norm_num)
  have h8 : 214013 ^ 256 % 65537 = 40045 := sq_step h7 (by norm_num) (by norm_num)
  have h9 : 214013 ^ 512 % 65537 = 42709 := sq_step h8 (by norm_num) (by norm_num)
  have h10 : 214013 ^ 1024 % 65537 = 32897 := sq_step h9 (by norm_num) (by norm_num)
  have h11 : 214013 ^ 2048 % 65537 = 128 := sq_step h10 (by norm_num) (by norm_num)
  have h12 : 214013 ^ 4096 % 65537 = 16384 := sq_step h11 (by norm_num) (by norm_num)
  have h13 : 214013 ^ 8192 % 65537 = 61441 := sq_step h12 (by norm_num) (by norm_num)
  have h14 : 214013 ^ 16384 % 65537 = 65281 := sq_step h13 (by norm_num) (by norm_num)
  have h15 : 214013 ^ 32768 % 65537 = 65536 := sq_step h14 (by norm_num) (by norm_num)
  exact h15

theorem lcg_pow15b : 214013 ^ 32768 % 3855 = 1 := by
  have h0 : 214013 ^ 1 % 3855 = 1988 := by norm_num
  have h1 : 214013 ^ 2 % 3855 = 769 := sq_step h0 (by norm_num) (by norm_num)
  have h2 : 214013 ^ 4 % 3855 = 1546 := sq_step h1 (by norm_num) (by norm_num)
  have h3 : 214013 ^ 8 % 3855 = 16 := sq_step h2 (by norm_num) (by norm_num)
  have h4 : 214013 ^ 16 % 3855 = 256 := sq_step h3 (by norm_num) (by norm_num)
  have h5 : 214013 ^ 32 % 3855 = 1 := sq_step h4 (by norm_num) (by norm_num)
  have h6 : 214013 ^ 64 % 3855 = 1 := sq_step h5 (by norm_num) (by norm_num)
  have h7 : 214013 ^ 128 % 3855 = 1 := sq_step h6 (by norm_num) (by norm_num)
  have h8 : 214013 ^ 256 % 3855 = 1 := sq_step h7 (by norm_num) (by norm_num)
  have h9 : 214013 ^ 512 % 3855 = 1 := sq_step h8 (by norm_num) (by norm_num)
  have h10 : 214013 ^ 1024 % 3855 = 1 := sq_step h9 (by norm_num) (by norm_num)
  have h11 : 214013 ^ 2048 % 3855 = 1 := sq_step h10 (by norm_num) (by norm_num)
  have h12 : 214013 ^ 4096 % 3855 = 1 := sq_step h11 (by norm_num) (by norm_num)
  have h13 : 214013 ^ 8192 % 3855 = 1 := sq_step h12 (by norm_num) (by norm_num)
  have h14 : 214013 ^ 16384 % 3855 = 1 := sq_step h13 (by norm_num) (by norm_num)
  have h15 : 214013 ^ 32768 % 3855 = 1 := sq_step h14 (by norm_num) (by norm_num)
  exact h15

theorem lcg_pow5 : 214013 ^ 32 % 3855 = 1 := by
  have h0 : 214013 ^ 1 % 3855 = 1988 := by norm_num
  have h1 : 214013 ^ 2 % 3855 = 769 := sq_step h0 (by norm_num) (by norm_num)
  have h2 : 214013 ^ 4 % 3855 = 1546 := sq_step h1 (by norm_num) (by norm_num)
  have h3 : 214013 ^ 8 % 3855 = 16 := sq_step h2 (by norm_num) (by norm_num)
  have h4 : 214013 ^ 16 % 3855 = 256 := sq_step h3 (by norm_num) (by norm_num)
  have h5 : 214013 ^ 32 % 3855 = 1 := sq_step h4 (by norm_num) (by norm_num)
  exact h5

theorem dvd_pow_sub {a n m r : Nat} (h : a ^ n % m = r) : (m : Int) ∣ (a : Int) ^ n - r := by
  have h1 : ((a ^ n : Nat) : Int) % (m : Int) = r := by rw [← Int.natCast_mod, h]
  push_cast at h1
  rw [← h1]
  exact Int.dvd_self_sub_emod

theorem dvd_mul_cop {m a d : Int} (hc : IsCoprime m a) : m ∣ a * d ↔ m ∣ d := ⟨hc.dvd_of_dvd_mul_left, fun h => h.mul_left a⟩

theorem lcgOut_same {x y : Nat} {j : Int} (hx : x < 4294967295) (hy : y < 4294967295) (h : lcgOut y = lcgOut x) (hj : (y : Int) - x = 65535 * j) :
    j = 0 ∨ j = 16384 ∨ j = -16384 ∨ j = 32769 ∨ j = -32769 ∨ j = 49153 ∨ j = -49153 := by
  unfold lcgOut at h
  have ex : ∃ r, r < 32768 ∧ x = x / 2 ^ 15 * 32768 + r := ⟨x % 32768, Nat.mod_lt _ (by decide), by omega⟩
  have ey : ∃ r, r < 32768 ∧ y = y / 2 ^ 15 * 32768 + r := ⟨y % 32768, Nat.mod_lt _ (by decide), by omega⟩
  obtain ⟨r, hr, ex⟩ := ex
  obtain ⟨r', hr', ey⟩ := ey
  generalize x / 2 ^ 15 = a at *
  generalize y / 2 ^ 15 = b at *
  have ea : ∃ q, q < 4 ∧ a = q * 32768 + a % 2 ^ 15 := ⟨a / 32768, by omega, by omega⟩
  have eb : ∃ q, q < 4 ∧ b = q * 32768 + b % 2 ^ 15 := ⟨b / 32768, by omega, by omega⟩
  obtain ⟨q, hq, ea⟩ := ea
  obtain ⟨q', hq', eb⟩ := eb
  rw [h] at eb
  generalize a % 2 ^ 15 = o at *
  subst ea eb ex ey
  clear hx hy h
  interval_cases q <;> interval_cases q' <;> omega

/-! ### Differences from the fixed point -/

/-- How far the state after call number `k` is from the fixed point. -/
def lcgDiff (t : Int) (k : Nat) : Int := (lcgState t k : Int) - 3769264667

theorem lcgDiff_dvd {t : Int} {k n : Nat} {m : Int} (hm : m ∣ 4294967295) : m ∣ 214013 ^ n * lcgDiff t k - lcgDiff t (k + n) :=
  hm.trans (lcgState_add t k n).dvd

theorem lcgState_eq {t u : Int} {k n : Nat} (h : (4294967295 : Int) ∣ lcgDiff t k - lcgDiff u n) : lcgState t k = lcgState u n :=
  lcg_eq_of_modEq (lcgState_lt _ _) (lcgState_lt _ _) (Int.modEq_iff_dvd.2 h).symm

theorem lcgDiff_zero {t : Int} (h0 : 0 ≤ t) (h1 : t < 2 ^ 46) : (4294967295 : Int) ∣ 214013 * (t - 3769264667) - lcgDiff t 0 := by
  obtain ⟨x, rfl⟩ := Int.eq_ofNat_of_zero_le h0
  have e : lcgState (x : Int) 0 = lcgStep x := by rw [lcgState_zero]; exact lcgFirst_of_lt (by omega)
  unfold lcgDiff
  rw [e]
  unfold lcgStep
  push_cast
  omega

theorem lcg_period {t : Int} {k : Nat} (h : (17 : Int) ∣ lcgDiff t k) : lcgState t (k + 65536) = lcgState t k := by
  apply lcgState_eq
  have h1 := lcgDiff_dvd (t := t) (k := k) (n := 65536) (dvd_refl _)
  have h2 := dvd_pow_sub lcg_pow16
  simp only [Nat.cast_ofNat, Nat.cast_one] at h2
  generalize (214013 : Int) ^ 65536 = A at h1 h2
  have h3 : (4294967295 : Int) ∣ (A - 1) * lcgDiff t k := by
    rw [show (4294967295 : Int) = 252645135 * 17 by norm_num]
    exact mul_dvd_mul h2 h
  have := dvd_sub h3 h1
  rw [show (A - 1) * lcgDiff t k - (A * lcgDiff t k - lcgDiff t (k + 65536)) = lcgDiff t (k + 65536) - lcgDiff t k by ring] at this
  exact this

theorem lcg_period32 {t : Int} {k : Nat} (h : (1114129 : Int) ∣ lcgDiff t k) : lcgState t (k + 32) = lcgState t k := by
  apply lcgState_eq
  have h1 := lcgDiff_dvd (t := t) (k := k) (n := 32) (dvd_refl _)
  have h2 : (3855 : Int) ∣ 214013 ^ 32 - 1 := by have := dvd_pow_sub lcg_pow5; exact_mod_cast this
  generalize (214013 : Int) ^ 32 = A at h1 h2
  have h3 : (4294967295 : Int) ∣ (A - 1) * lcgDiff t k := by
    rw [show (4294967295 : Int) = 3855 * 1114129 by norm_num]
    exact mul_dvd_mul h2 h
  have := dvd_sub h3 h1
  rw [show (A - 1) * lcgDiff t k - (A * lcgDiff t k - lcgDiff t (k + 32)) = lcgDiff t (k + 32) - lcgDiff t k by ring] at this
  exact this

theorem lcgDiff_17 (t : Int) (k : Nat) : (17 : Int) ∣ lcgDiff t (k + 1) := lcgState_17 t k

theorem lcgDiff_17' {t : Int} (h0 : 0 ≤ t) (h1 : t < 2 ^ 46) (k : Nat) : (17 : Int) ∣ lcgDiff t k := by
  cases k with
  | succ k => exact lcgDiff_17 t k
  | zero =>
    rw [← dvd_iff_dvd_of_dvd_sub ((show (17 : Int) ∣ 4294967295 by decide).trans (lcgDiff_zero h0 h1))]
    exact Dvd.dvd.mul_right (by decide) _

theorem lcgDiff_one (t : Int) (k : Nat) : (4294967295 : Int) ∣ 214013 * lcgDiff t k - lcgDiff t (k + 1) := by
  have := lcgDiff_dvd (t := t) (k := k) (n := 1) (dvd_refl _)
  rwa [pow_one] at this

theorem lcgDiff_65537 {t : Int} (h0 : 0 ≤ t) (h1 : t < 2 ^ 46) (k : Nat) : (65537 : Int) ∣ lcgDiff t k ↔ (65537 : Int) ∣ t - 35186 := by
  have hc : IsCoprime (65537 : Int) 214013 := by rw [Int.isCoprime_iff_gcd_eq_one]; decide
  have hm : (65537 : Int) ∣ 4294967295 := by decide
  induction k with
  | zero =>
    rw [← dvd_iff_dvd_of_dvd_sub (hm.trans (lcgDiff_zero h0 h1)), dvd_mul_cop hc]
    apply dvd_iff_dvd_of_dvd_sub
    rw [show t - 3769264667 - (t - 35186) = -3769229481 by ring]
    decide
  | succ k ih => exact (dvd_iff_dvd_of_dvd_sub (hm.trans (lcgDiff_one t k))).symm.trans ((dvd_mul_cop hc).trans ih)

theorem lcgDiff_big {t : Int} (h0 : 0 ≤ t) (h1 : t < 2 ^ 46) (k : Nat) : (252645135 : Int) ∣ lcgDiff t k ↔ (252645135 : Int) ∣ t - 232232777 := by
  have hc : IsCoprime (252645135 : Int) 214013 := by rw [Int.isCoprime_iff_gcd_eq_one]; decide
  have hm : (252645135 : Int) ∣ 4294967295 := by decide
  induction k with
  | zero =>
    rw [← dvd_iff_dvd_of_dvd_sub (hm.trans (lcgDiff_zero h0 h1)), dvd_mul_cop hc]
    apply dvd_iff_dvd_of_dvd_sub
    rw [show t - 3769264667 - (t - 232232777) = -3537031890 by ring]
    decide
  | succ k ih => exact (dvd_iff_dvd_of_dvd_sub (hm.trans (lcgDiff_one t k))).symm.trans ((dvd_mul_cop hc).trans ih)

theorem lcg_half_arith {x y : Nat} {d d' A : Int} (hx : x < 4294967295) (hy : y < 4294967295) (h : lcgOut y = lcgOut x) (hd : (x : Int) - 3769264667 = d)
    (hd' : (y : Int) - 3769264667 = d') (h17 : (17 : Int) ∣ d) (h1 : (4294967295 : Int) ∣ A * d - d') (h3 : (65537 : Int) ∣ A - 65536)
    (h4 : (3855 : Int) ∣ A - 1) : d % 65537 ∈ [(0 : Int), 16384, 49153, 32768, 32769] := by
  have g1 : (65537 : Int) ∣ 65536 * d - d' := by
    have := dvd_sub ((show (65537 : Int) ∣ 4294967295 by decide).trans h1) (h3.mul_right d)
    rw [show A * d - d' - (A - 65536) * d = 65536 * d - d' by ring] at this
    exact this
  have g2 : (3855 : Int) ∣ d - d' := by
    have := dvd_sub ((show (3855 : Int) ∣ 4294967295 by decide).trans h1) (h4.mul_right d)
    rw [show A * d - d' - (A - 1) * d = d - d' by ring] at this
    exact this
  have g3 : (17 : Int) ∣ d - d' :=
    dvd_sub h17 ((dvd_iff_dvd_of_dvd_sub ((show (17 : Int) ∣ 4294967295 by decide).trans h1)).1 (h17.mul_left A))
  have g4 : (65535 : Int) ∣ d' - d := by
    rw [show (65535 : Int) = 3855 * 17 by norm_num, dvd_sub_comm]
    exact IsCoprime.mul_dvd (by rw [Int.isCoprime_iff_gcd_eq_one]; decide) g2 g3
  clear h17 h1 h3 h4 g2 g3
  obtain ⟨j, hj⟩ := g4
  have hj0 : (y : Int) - x = 65535 * j := by rw [← hj, ← hd, ← hd']; ring
  have hj' := lcgOut_same hx hy h hj0
  clear hd hd' hx hy h hj0
  have g5 : (65537 : Int) ∣ 2 * (d - j) := by
    have : 2 * (d - j) = 65537 * (d - j) - (65536 * d - d') := by linarith
    rw [this]
    exact dvd_sub (dvd_mul_right _ _) g1
  have g6 : (65537 : Int) ∣ d - j := (dvd_mul_cop (by rw [Int.isCoprime_iff_gcd_eq_one]; decide)).1 g5
  rw [show d % 65537 = j % 65537 from (Int.modEq_iff_dvd.2 g6).symm]
  clear g1 g5 hj g6
  rcases hj' with rfl | rfl | rfl | rfl | rfl | rfl | rfl <;> decide

/-- Two states that give the same result half a period apart. -/
theorem lcg_half {t : Int} {k : Nat} (h17 : (17 : Int) ∣ lcgDiff t k) (h : lcgOut (lcgState t (k + 32768)) = lcgOut (lcgState t k)) :
    lcgDiff t k % 65537 ∈ [(0 : Int), 16384, 49153, 32768, 32769] := by
  have h1 := lcgDiff_dvd (t := t) (k := k) (n := 32768) (dvd_refl _)
  have h3 := dvd_pow_sub lcg_pow15
  have h4 := dvd_pow_sub lcg_pow15b
  simp only [Nat.cast_ofNat, Nat.cast_one] at h3 h4
  generalize (214013 : Int) ^ 32768 = A at h1 h3 h4
  exact lcg_half_arith (lcgState_lt t k) (lcgState_lt t (k + 32768)) h rfl rfl h17 h1 h3 h4

theorem no_half {t : Int} (h0 : 0 ≤ t) (h1 : t < 2 ^ 46) (hne : ¬ (65537 : Int) ∣ t - 35186) (n : Nat)
    (h : ∀ k, n ≤ k → lcgOut (lcgState t (k + 32768)) = lcgOut (lcgState t k)) : False := by
  have a1 := lcg_half (lcgDiff_17' h0 h1 n) (h n le_rfl)
  have a2 := lcg_half (lcgDiff_17' h0 h1 (n + 1)) (h (n + 1) (by omega))
  have a3 : ¬ (65537 : Int) ∣ lcgDiff t n := by rw [lcgDiff_65537 h0 h1]; exact hne
  have a4 := (show (65537 : Int) ∣ 4294967295 by decide).trans (lcgDiff_one t n)
  generalize lcgDiff t n = d at *
  generalize lcgDiff t (n + 1) = d' at *
  clear h hne h0 h1
  simp only [List.mem_cons, List.not_mem_nil, or_false] at a1 a2
  rcases a1 with a1 | a1 | a1 | a1 | a1 <;> omega

theorem HasPeriod.mul {s : Nat → Nat} {p : Nat} (h : HasPeriod s p) (m : Nat) : ∃ n, ∀ k, n ≤ k → s (k + m * p) = s k := by
  obtain ⟨_, n, h⟩ := h
  refine ⟨n, fun k hk => ?_⟩
  induction m with
  | zero => simp
  | succ m ih => rw [Nat.succ_mul, ← Nat.add_assoc, h _ (by omega), ih]

/-! ### Theorems -/

/-- **C95** Whatever the clock shows: from the second number on, the numbers repeat after 65536 calls. -/
theorem C95_repeats (now : Nat → Int) (k : Nat) (hk : 1 ≤ k) : nthRandom now (k + 65536) = nthRandom now k := by
  obtain ⟨k, rfl⟩ := Nat.exists_eq_add_of_le' hk
  rw [nthRandom_eq, nthRandom_eq, lcg_period (lcgDiff_17 _ k)]

/-- **C95** When the clock shows a time of the next two million years, the first number belongs to the cycle too. -/
theorem C95_repeats_from_the_start (now : Nat → Int) (h0 : 0 ≤ now 0) (h1 : now 0 < 2 ^ 46) (k : Nat) :
    nthRandom now (k + 65536) = nthRandom now k := by
  rw [nthRandom_eq, nthRandom_eq, lcg_period (lcgDiff_17' h0 h1 k)]

/-- **C95** Except in one second of 65537, the periods are exactly the multiples of 65536: there is no shorter one, however late it begins. -/
theorem C95_period (now : Nat → Int) (h0 : 0 ≤ now 0) (h1 : now 0 < 2 ^ 46) (hne : ¬ (65537 : Int) ∣ now 0 - 35186) (p : Nat) :
    HasPeriod (nthRandom now) p ↔ 0 < p ∧ 65536 ∣ p := by
  have hc := C95_repeats_from_the_start now h0 h1
  have hfull : HasPeriod (nthRandom now) 65536 := ⟨by decide, 0, fun k _ => hc k⟩
  constructor
  · intro hp
    refine ⟨hp.1, ?_⟩
    by_contra hd
    obtain ⟨j, q, hq, e⟩ := Nat.exists_eq_two_pow_mul_odd hp.1.ne'
    have hj : j ≤ 15 := by
      by_contra hj
      apply hd
      rw [e, show (65536 : Nat) = 2 ^ 16 by norm_num]
      exact (pow_dvd_pow 2 (by omega)).mul_right q
    obtain ⟨r, hr⟩ := hq
    obtain ⟨n1, g1⟩ := hp.mul (2 ^ (15 - j))
    obtain ⟨n2, g2⟩ := hfull.mul r
    have e2 : 2 ^ (15 - j) * p = 32768 + r * 65536 := by
      have : 2 ^ (15 - j) * 2 ^ j = 32768 := by rw [← pow_add, show 15 - j + j = 15 by omega]; norm_num
      rw [e, ← Nat.mul_assoc, this, hr]; ring
    refine no_half h0 h1 hne (n1 + n2) fun k hk => ?_
    rw [← nthRandom_eq, ← nthRandom_eq, ← g1 k (by omega), e2, ← Nat.add_assoc, g2 _ (by omega)]
  · rintro ⟨hp, m, rfl⟩
    obtain ⟨n, h⟩ := hfull.mul m
    exact ⟨hp, n, fun k hk => by rw [Nat.mul_comm]; exact h k hk⟩

/-- **C95** In that second of 65537 the numbers repeat already after 32 calls. -/
theorem C95_short_period (now : Nat → Int) (h0 : 0 ≤ now 0) (h1 : now 0 < 2 ^ 46) (h : (65537 : Int) ∣ now 0 - 35186) (k : Nat) :
    nthRandom now (k + 32) = nthRandom now k := by
  have h2 : (1114129 : Int) ∣ lcgDiff (now 0) k := by
    rw [show (1114129 : Int) = 65537 * 17 by norm_num]
    exact IsCoprime.mul_dvd (by rw [Int.isCoprime_iff_gcd_eq_one]; decide) ((lcgDiff_65537 h0 h1 k).2 h) (lcgDiff_17' h0 h1 k)
  rw [nthRandom_eq, nthRandom_eq, lcg_period32 h2]

theorem lcg_fixed {t : Int} (h0 : 0 ≤ t) (h1 : t < 2 ^ 46) (h : (252645135 : Int) ∣ t - 232232777) (k : Nat) : lcgState t k = 3769264667 := by
  have h2 : (4294967295 : Int) ∣ lcgDiff t k := by
    rw [show (4294967295 : Int) = 252645135 * 17 by norm_num]
    exact IsCoprime.mul_dvd (by rw [Int.isCoprime_iff_gcd_eq_one]; decide) ((lcgDiff_big h0 h1 k).2 h) (lcgDiff_17' h0 h1 k)
  have := lcgState_lt t k
  unfold lcgDiff at h2
  omega

theorem lcg_moves' : ∀ a, a < 61 → ∀ b, b < 64 → lcgOut (lcgStep (166260 + 1114129 * (64 * a + b))) = lcgOut (166260 + 1114129 * (64 * a + b)) →
    166260 + 1114129 * (64 * a + b) = 3769264667 ∨ 3855 ≤ 64 * a + b := by
  decide +kernel

theorem lcg_moves (j : Nat) (hj : j < 3855) (h : lcgOut (lcgStep (166260 + 1114129 * j)) = lcgOut (166260 + 1114129 * j)) :
    166260 + 1114129 * j = 3769264667 := by
  have := lcg_moves' (j / 64) (by omega) (j % 64) (by omega)
  rw [show 64 * (j / 64) + j % 64 = j by omega] at this
  exact (this h).resolve_right (by omega)

/-- **C95** The numbers are the same one forever exactly if the program asks for the first one in one of the seconds 232232777 + n * 252645135. -/
theorem C95_stuck_iff (now : Nat → Int) (h0 : 0 ≤ now 0) (h1 : now 0 < 2 ^ 46) :
    (∃ n r, ∀ k, n ≤ k → nthRandom now k = r) ↔ (252645135 : Int) ∣ now 0 - 232232777 := by
  constructor
  · rintro ⟨n, r, h⟩
    have hp : HasPeriod (nthRandom now) 1 := ⟨by decide, n, fun k hk => by rw [h _ (by omega), h _ hk]⟩
    have h2 : (65537 : Int) ∣ now 0 - 35186 := by
      by_contra hne
      have := ((C95_period now h0 h1 hne 1).1 hp).2
      omega
    have h3 : (1114129 : Int) ∣ lcgDiff (now 0) n := by
      rw [show (1114129 : Int) = 65537 * 17 by norm_num]
      exact IsCoprime.mul_dvd (by rw [Int.isCoprime_iff_gcd_eq_one]; decide) ((lcgDiff_65537 h0 h1 n).2 h2) (lcgDiff_17' h0 h1 n)
    have hx := lcgState_lt (now 0) n
    have e : lcgOut (lcgStep (lcgState (now 0) n)) = lcgOut (lcgState (now 0) n) := by
      rw [← lcgState_succ, ← nthRandom_eq, ← nthRandom_eq, h _ (by omega), h _ le_rfl]
    rw [← lcgDiff_big h0 h1 n]
    obtain ⟨j, hj, ej⟩ : ∃ j, j < 3855 ∧ lcgState (now 0) n = 166260 + 1114129 * j := by
      unfold lcgDiff at h3
      exact ⟨(lcgState (now 0) n - 166260) / 1114129, by omega, by omega⟩
    rw [ej] at e
    have e3 := lcg_moves j hj e
    rw [← ej] at e3
    unfold lcgDiff
    rw [e3]
    decide
  · intro h
    exact ⟨0, 16724, fun k _ => by rw [nthRandom_eq, lcg_fixed h0 h1 h]; decide⟩

/-- **C95** That number is 16724. -/
theorem C95_stuck (now : Nat → Int) (h0 : 0 ≤ now 0) (h1 : now 0 < 2 ^ 46) (h : (252645135 : Int) ∣ now 0 - 232232777) (k : Nat) :
    nthRandom now k = 16724 := by
  rw [nthRandom_eq, lcg_fixed h0 h1 h]; decide

/-- **C95** Two programs started a multiple of 252645135 seconds (eight years) apart get the same numbers. -/
theorem C95_same_numbers (now now' : Nat → Int) (h0 : 0 ≤ now 0) (h1 : now 0 < 2 ^ 46) (h0' : 0 ≤ now' 0) (h1' : now' 0 < 2 ^ 46)
    (h : (252645135 : Int) ∣ now 0 - now' 0) (k : Nat) : nthRandom now k = nthRandom now' k := by
  have e : lcgState (now 0) 0 = lcgState (now' 0) 0 := by
    apply lcgState_eq
    have g1 := lcgDiff_zero h0 h1
    have g2 := lcgDiff_zero h0' h1'
    have g3 : (4294967295 : Int) ∣ 214013 * (now 0 - now' 0) := by
      rw [show (4294967295 : Int) = 17 * 252645135 by norm_num]
      exact mul_dvd_mul (by decide) h
    have := dvd_add (dvd_sub g3 g1) g2
    rw [show 214013 * (now 0 - now' 0) - (214013 * (now 0 - 3769264667) - lcgDiff (now 0) 0) + (214013 * (now' 0 - 3769264667) - lcgDiff (now' 0) 0) =
      lcgDiff (now 0) 0 - lcgDiff (now' 0) 0 by ring] at this
    exact this
  rw [lcgState_zero, lcgState_zero] at e
  rw [nthRandom_eq, nthRandom_eq]
  unfold lcgState
  rw [e]

/-- An ordinary second: exactly the multiples of 65536 are periods. -/
example (p : Nat) : HasPeriod (nthRandom fun _ => 1700000000) p ↔ 0 < p ∧ 65536 ∣ p := C95_period _ (by decide) (by decide) (by decide) p

/-- 24 May 2025, 16:19:47: the number is 16724 forever. -/
example (k : Nat) : nthRandom (fun i => 1748103587 + i) k = 16724 := C95_stuck _ (by decide) (by decide) (by decide) k

/-- A second with the period 32 in which not all numbers are the same. -/
example : (∀ k, nthRandom (fun _ => 1700064966) (k + 32) = nthRandom (fun _ => 1700064966) k) ∧ nthRandom (fun _ => 1700064966) 1 ≠ nthRandom (fun _ => 1700064966) 0 :=
  ⟨fun k => C95_short_period _ (by decide) (by decide) (by decide) k, by decide +kernel⟩

example (k : Nat) : nthRandom (fun _ => 1700000000) k = nthRandom (fun _ => 1952645135) k :=
  C95_same_numbers _ _ (by decide) (by decide) (by decide) (by decide) (by decide) k

end Vita
