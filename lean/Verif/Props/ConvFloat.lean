import Verif.Model.ConvFloat
import Verif.Spec.Decimal
import Verif.Lemmas.Float
import Verif.Props.Conv
import Mathlib.Tactic.Linarith
import Mathlib.Tactic.FieldSimp
import Mathlib.Tactic.NormNum
/-!
# Properties C90, C91: conversion between floating point numbers and text
-/

namespace Vita
open Out Spec Conv

seal wadd wsub wmul

/-! ### Rounding -/

theorem roundEven_eq_iff (s : ℚ) (n : ℤ) : roundEven s = n ↔ |s - n| < 1 / 2 ∨ (|s - n| = 1 / 2 ∧ n % 2 = 0) := by
  have h1 := Int.floor_le s
  have h2 := Int.lt_floor_add_one s
  have key : ∀ m : ℤ, |s - m| ≤ 1 / 2 → m = ⌊s⌋ ∨ m = ⌊s⌋ + 1 := by
    intro m hm
    rw [abs_le] at hm
    have a : (m : ℚ) < (⌊s⌋ + 2 : ℤ) := by push_cast; linarith [hm.1]
    have b : ((⌊s⌋ - 1 : ℤ) : ℚ) < m := by push_cast; linarith [hm.2]
    have a := Int.cast_lt.1 a
    have b := Int.cast_lt.1 b
    omega
  have e0 : |s - (⌊s⌋ : ℚ)| = s - ⌊s⌋ := abs_of_nonneg (by linarith)
  have e1 : |s - ((⌊s⌋ + 1 : ℤ) : ℚ)| = ⌊s⌋ + 1 - s := by
    rw [abs_of_nonpos (by push_cast; linarith)]; push_cast; ring
  constructor
  · rintro rfl
    unfold roundEven
    split
    · left; rw [e0]; assumption
    · split
      · left; rw [e1]; linarith
      · split
        · right; rw [e0]; exact ⟨by linarith, by assumption⟩
        · right; rw [e1]; exact ⟨by linarith, by omega⟩
  · intro h
    have hle : |s - n| ≤ 1 / 2 := by rcases h with h | h <;> linarith
    rcases key n hle with rfl | rfl
    · rw [e0] at h
      unfold roundEven
      rcases h with h | h
      · rw [if_pos h]
      · rw [if_neg (by linarith), if_neg (by linarith), if_pos h.2]
    · rw [e1] at h
      unfold roundEven
      rcases h with h | h
      · rw [if_neg (by linarith), if_pos (by linarith)]
      · rw [if_neg (by linarith), if_neg (by linarith), if_neg (by omega)]

/-- What is not farther from an integer than something rounded to it is rounded to it as well. -/
theorem roundEven_closer {s r : ℚ} (h : |r - roundEven s| ≤ |s - roundEven s|) : roundEven r = roundEven s := by
  have := (roundEven_eq_iff s _).1 rfl
  rw [roundEven_eq_iff]
  rcases this with h1 | h1
  · left; linarith
  · rcases lt_or_eq_of_le h with h2 | h2
    · left; linarith
    · right; exact ⟨by linarith, h1.2⟩

theorem roundEven_scaled (x : ℚ) (k : ℤ) : |(roundEven (x * 10 ^ 6) : ℚ) / 10 ^ 6 - x| ≤ |(k : ℚ) / 10 ^ 6 - x| := by
  have h := roundEven_nearest (x * 10 ^ 6) k
  have e : ∀ y : ℚ, |y / 10 ^ 6 - x| = |y - x * 10 ^ 6| / 10 ^ 6 := by
    intro y
    rw [show y / 10 ^ 6 - x = (y - x * 10 ^ 6) / 10 ^ 6 by ring, abs_div, abs_of_pos (show (0 : ℚ) < 10 ^ 6 by norm_num)]
  rw [e, e]
  exact div_le_div_of_nonneg_right h (by norm_num)

theorem roundEven_six {x : ℚ} {k : ℤ} (h : x = k / 10 ^ 6) : roundEven (x * 10 ^ 6) = k := by
  rw [h, div_mul_cancel₀ _ (by norm_num), roundEven_int]

/-- The number nearest to a number with six decimals is found again after rounding to six decimals. -/
theorem rnd_six_rnd {f : Fmt} (hf : 20 ≤ f.frac) (he : f.emin ≤ -20) {k : ℤ} (hk : 0 ≤ k) {x : ℚ} (h : rnd f (k / 10 ^ 6) = x) :
    rnd f (roundEven (x * 10 ^ 6) / 10 ^ 6) = x := by
  generalize hq : (k : ℚ) / 10 ^ 6 = q at h
  have hq0 : 0 ≤ q := by rw [← hq]; exact div_nonneg (by exact_mod_cast hk) (by norm_num)
  have hx0 : 0 ≤ x := by rw [← h]; exact rnd_nonneg f hq0
  by_cases hA : |q - x| < 1 / (2 * 10 ^ 6)
  · have : roundEven (x * 10 ^ 6) = k := by
      rw [roundEven_eq_iff]
      left
      rw [abs_lt] at hA ⊢
      have hk' : (k : ℚ) = q * 10 ^ 6 := by rw [← hq]; ring
      rw [hk']
      constructor <;> linarith [hA.1, hA.2]
    rw [this, hq, h]
  have herr := rnd_err f q
  rw [h, abs_of_nonneg hq0, abs_sub_comm] at herr
  have hu6 : 1 / 10 ^ 6 ≤ quantum f q := by
    have : 1 / (2 * 10 ^ 6) ≤ |q - x| := not_lt.1 hA
    linarith
  have hqp : 0 < q := by
    rcases lt_or_eq_of_le hq0 with h0 | h0
    · exact h0
    · exfalso
      apply hA
      rw [← h, ← h0, rnd_zero]
      norm_num
  have hmax : max (Int.log 2 q - f.frac) f.emin = Int.log 2 q - f.frac ∧ -20 < Int.log 2 q - f.frac := by
    have : (2 : ℚ) ^ (-20 : ℤ) < 2 ^ max (Int.log 2 q - f.frac) f.emin := lt_of_lt_of_le (by norm_num) hu6
    have := (zpow_lt_zpow_iff_right₀ (by norm_num : (1 : ℚ) < 2)).1 this
    rcases max_choice (Int.log 2 q - f.frac) f.emin with h1 | h1 <;> rw [h1] at this
    · exact ⟨h1, this⟩
    · omega
  obtain ⟨hm, hL⟩ := hmax
  have hL0 : 0 ≤ Int.log 2 q := by omega
  generalize hLe : Int.log 2 q = L at hm hL hL0
  have hlo : (2 : ℚ) ^ L ≤ q := by rw [← hLe]; exact zpow_le_self hqp
  have hhi : q < (2 : ℚ) ^ (L + 1) := by rw [← hLe]; exact lt_zpow_self q
  have hu : quantum f q = 2 ^ (L - f.frac) := by rw [quantum, hLe, hm]
  have hu0 : (0 : ℚ) < 2 ^ (L - f.frac) := zpow_pos (by norm_num) _
  have hxe : x = roundEven (q / 2 ^ (L - f.frac)) * 2 ^ (L - f.frac) := by
    rw [← h, rnd, if_pos hq0, rndPos, hu]
  have hxf : IsFloat f x := h ▸ rnd_isFloat f q
  by_cases hint : ∃ m : ℤ, x = m
  · obtain ⟨m, hm'⟩ := hint
    have : x = ((m * 10 ^ 6 : ℤ) : ℚ) / 10 ^ 6 := by rw [hm']; push_cast; ring
    rw [roundEven_six this, ← this]
    exact rnd_of_float hxf
  generalize hn : roundEven (q / 2 ^ (L - f.frac)) = n at hxe
  have p2 : ∀ j : ℤ, 0 ≤ j → ∃ m : ℤ, (2 : ℚ) ^ j = m := fun j hj => ⟨2 ^ j.toNat, by
    push_cast
    rw [← zpow_natCast, Int.toNat_of_nonneg hj]⟩
  have eL : (2 : ℚ) ^ L = (2 ^ f.frac : ℤ) * 2 ^ (L - f.frac) := by
    push_cast
    rw [← zpow_natCast, ← zpow_add₀ (by norm_num)]
    congr 1; omega
  have eL1 : (2 : ℚ) ^ (L + 1) = (2 ^ (f.frac + 1) : ℤ) * 2 ^ (L - f.frac) := by
    push_cast
    rw [← zpow_natCast, ← zpow_add₀ (by norm_num)]
    congr 1; push_cast; omega
  have hn1 : 2 ^ f.frac + 1 ≤ n := by
    have h1 : 2 ^ f.frac ≤ n := by
      rw [← hn, ← roundEven_int (2 ^ f.frac)]
      apply roundEven_mono
      rw [le_div_iff₀ hu0, ← eL]
      exact hlo
    have h2 : n ≠ 2 ^ f.frac := by
      intro hc
      apply hint
      rw [hxe, hc, ← eL]
      exact p2 L hL0
    omega
  have hn2 : n + 1 ≤ 2 ^ (f.frac + 1) := by
    have h1 : n ≤ 2 ^ (f.frac + 1) := by
      rw [← hn, ← roundEven_int (2 ^ (f.frac + 1))]
      apply roundEven_mono
      rw [div_le_iff₀ hu0, ← eL1]
      exact hhi.le
    have h2 : n ≠ 2 ^ (f.frac + 1) := by
      intro hc
      apply hint
      rw [hxe, hc, ← eL1]
      exact p2 _ (by omega)
    omega
  have hcl : |(roundEven (x * 10 ^ 6) : ℚ) / 10 ^ 6 - x| ≤ |q - x| := by rw [← hq]; exact roundEven_scaled x k
  generalize (roundEven (x * 10 ^ 6) : ℚ) / 10 ^ 6 = q' at hcl
  rw [hu] at herr
  have hclu : |q' - x| ≤ 2 ^ (L - f.frac) / 2 := le_trans hcl herr
  have hx1 : (2 : ℚ) ^ L + 2 ^ (L - f.frac) ≤ x := by
    rw [hxe, eL]
    have : ((2 ^ f.frac + 1 : ℤ) : ℚ) ≤ n := by exact_mod_cast hn1
    have := mul_le_mul_of_nonneg_right this hu0.le
    push_cast at this ⊢
    linarith
  have hx2 : x + 2 ^ (L - f.frac) ≤ (2 : ℚ) ^ (L + 1) := by
    rw [hxe, eL1]
    have : ((n + 1 : ℤ) : ℚ) ≤ (2 ^ (f.frac + 1) : ℤ) := by exact_mod_cast hn2
    have := mul_le_mul_of_nonneg_right this hu0.le
    push_cast at this ⊢
    linarith
  rw [abs_le] at hclu
  have hq1 : (2 : ℚ) ^ L ≤ q' := by linarith [hclu.1]
  have hq2 : q' < (2 : ℚ) ^ (L + 1) := by linarith [hclu.2]
  have hq'0 : 0 ≤ q' := le_trans (zpow_pos (by norm_num) _).le hq1
  rw [rnd, if_pos hq'0, rndPos, quantum_eq f hq1 hq2, hm]
  have : roundEven (q' / 2 ^ (L - f.frac)) = roundEven (q / 2 ^ (L - f.frac)) := by
    apply roundEven_closer
    rw [hn]
    have e : ∀ y : ℚ, |y / 2 ^ (L - f.frac) - n| = |y - x| / 2 ^ (L - f.frac) := by
      intro y
      rw [hxe, show y / 2 ^ (L - f.frac) - n = (y - n * 2 ^ (L - f.frac)) / 2 ^ (L - f.frac) by field_simp, abs_div, abs_of_pos hu0]
    rw [e, e]
    exact div_le_div_of_nonneg_right hcl hu0.le
  rw [this, hn, ← hxe]

/-! ### Digits -/

theorem printPad_zero : ∀ (k m : Nat), m ≤ k → printPad k 0 m = if m = 0 then [] else numeral m
  | 0, m, h => by
    obtain rfl : m = 0 := by omega
    rfl
  | k + 1, m, h => by
    unfold printPad
    by_cases h0 : m = 0
    · simp [h0]
    · rw [if_neg (by omega), if_neg h0, Nat.zero_sub, printPad_zero k (m / 10) (by omega)]
      by_cases h1 : m < 10
      · rw [if_pos (by omega), numeral_small h1, Nat.mod_eq_of_lt h1, List.nil_append]
      · rw [if_neg (by omega), numeral_big (n := m) (by omega)]

theorem printPad_one {k m : Nat} (h : m < k) : printPad k 1 m = numeral m := by
  obtain ⟨k, rfl⟩ := Nat.exists_eq_succ_of_ne_zero (show k ≠ 0 by omega)
  unfold printPad
  rw [if_neg (by omega), show 1 - 1 = 0 from rfl, printPad_zero k (m / 10) (by omega)]
  by_cases h1 : m < 10
  · rw [if_pos (by omega), numeral_small h1, Nat.mod_eq_of_lt h1, List.nil_append]
  · rw [if_neg (by omega), numeral_big (n := m) (by omega)]

theorem printPad_succ (k m : Nat) : printPad (k + 1) (k + 1) m = printPad k k (m / 10) ++ [UInt8.ofNat (48 + m % 10)] := by
  conv_lhs => unfold printPad
  rw [if_neg (by omega), Nat.add_sub_cancel]

theorem printPad_length : ∀ (k m : Nat), (printPad k k m).length = k
  | 0, _ => rfl
  | k + 1, m => by rw [printPad_succ, List.length_append, printPad_length k]; rfl

theorem printPad_digit : ∀ (k m : Nat), ∀ c ∈ printPad k k m, IsDigit c
  | 0, _, c, h => by cases h
  | k + 1, m, c, h => by
    rw [printPad_succ, List.mem_append, List.mem_singleton] at h
    rcases h with h | rfl
    · exact printPad_digit k _ c h
    · rw [IsDigit, digitChar_toNat (Nat.mod_lt _ (by omega))]
      omega

theorem digitsValue_append (a b : Text) : digitsValue (a ++ b) = digitsValue a * 10 ^ b.length + digitsValue b := by
  unfold digitsValue
  rw [List.reverse_append, List.map_append, Nat.ofDigits_append]
  simp only [List.length_map, List.length_reverse]
  ring

theorem digitsValue_single (c : UInt8) : digitsValue [c] = c.toNat - 48 := by simp [digitsValue]

theorem printPad_value : ∀ (k m : Nat), m < 10 ^ k → digitsValue (printPad k k m) = m
  | 0, m, h => by
    obtain rfl : m = 0 := by simpa using h
    rfl
  | k + 1, m, h => by
    rw [printPad_succ, digitsValue_append, printPad_value k _ (by rw [pow_succ] at h; omega), digitsValue_single,
      digitChar_toNat (Nat.mod_lt _ (by omega))]
    simp only [List.length_singleton, pow_one]
    omega

/-- Digits are determined by their number and the value they denote. -/
theorem printPad_of_value : ∀ (k : Nat) (t : Text), t.length = k → (∀ c ∈ t, IsDigit c) → printPad k k (digitsValue t) = t ∧ digitsValue t < 10 ^ k
  | 0, t, hl, _ => by
    obtain rfl := List.length_eq_zero_iff.1 hl
    exact ⟨rfl, by decide⟩
  | k + 1, t, hl, hd => by
    rcases List.eq_nil_or_concat t with rfl | ⟨u, c, rfl⟩
    · cases hl
    · rw [List.concat_eq_append] at *
      obtain ⟨h1, h2⟩ := printPad_of_value k u (by simpa using hl) (fun d h => hd d (List.mem_append_left _ h))
      have hc : IsDigit c := hd c (by simp)
      obtain ⟨hc1, hc2⟩ := hc
      rw [digitsValue_append, digitsValue_single]
      simp only [List.length_singleton, pow_one]
      constructor
      · rw [printPad_succ, show (digitsValue u * 10 + (c.toNat - 48)) / 10 = digitsValue u by omega, h1,
          show (digitsValue u * 10 + (c.toNat - 48)) % 10 = c.toNat - 48 by omega, show 48 + (c.toNat - 48) = c.toNat by omega,
          UInt8.ofNat_toNat]
      · rw [pow_succ]; omega

/-! ### Six decimals -/

theorem printF_fin (neg : Bool) (x : ℚ) :
    printF (.fin neg x) = (if neg then [45] else []) ++ (numeral ((roundEven (x * 10 ^ 6)).toNat / 10 ^ 6) ++
      46 :: printPad 6 6 ((roundEven (x * 10 ^ 6)).toNat % 10 ^ 6)) := by
  unfold printF
  dsimp only
  rw [printPad_one (Nat.lt_succ_of_le (Nat.div_le_self _ _))]
  simp only [List.append_assoc, List.singleton_append]

theorem fractionValue_six (n : Nat) {fp : Text} (h : fp.length = 6) :
    fractionValue (numeral n) fp = ((n * 10 ^ 6 + digitsValue fp : Nat) : ℚ) / 10 ^ 6 := by
  rw [fractionValue, digitsValue_append, digitsValue_numeral, h]

theorem abs_six (k : ℚ) (x : ℚ) : |k / 10 ^ 6 - x| = |x * 10 ^ 6 - k| / 10 ^ 6 := by
  rw [show k / 10 ^ 6 - x = -((x * 10 ^ 6 - k) / 10 ^ 6) by ring, abs_neg, abs_div, abs_of_pos (show (0 : ℚ) < 10 ^ 6 by norm_num)]

theorem last_parity {fp : Text} (h : fp.length = 6) (hd : ∀ c ∈ fp, IsDigit c) (n : Nat) :
    ∃ c, fp.getLast? = some c ∧ (c.toNat % 2 = 0 ↔ (n * 10 ^ 6 + digitsValue fp) % 2 = 0) := by
  rcases List.eq_nil_or_concat fp with rfl | ⟨u, c, rfl⟩
  · cases h
  · rw [List.concat_eq_append] at *
    refine ⟨c, by simp, ?_⟩
    rw [digitsValue_append, digitsValue_single]
    have hc : IsDigit c := hd c (by simp)
    obtain ⟨hc1, hc2⟩ := hc
    simp only [List.length_singleton, pow_one]
    omega

/-- The text with six decimals is unique, and it is the one `printf` makes. -/
theorem isSixDecimals_iff {x : ℚ} (hx : 0 ≤ x) (t : Text) : IsSixDecimals t x ↔ t = printF (.fin false x) := by
  have hs : 0 ≤ x * 10 ^ 6 := mul_nonneg hx (by norm_num)
  rw [printF_fin]
  simp only [Bool.false_eq_true, if_false, List.nil_append]
  constructor
  · rintro ⟨n, fp, rfl, hl, hd, hnear, htie⟩
    obtain ⟨hp, hv⟩ := printPad_of_value 6 fp hl hd
    obtain ⟨c, hc, hpar⟩ := last_parity hl hd n
    rw [fractionValue_six n hl] at hnear htie
    have hv' : digitsValue fp < 1000000 := hv
    generalize hN : n * 10 ^ 6 + digitsValue fp = N at *
    have hre : roundEven (x * 10 ^ 6) = (N : ℤ) := by
      have h1 : |x * 10 ^ 6 - N| ≤ 1 / 2 := by
        have h := hnear (roundEven (x * 10 ^ 6)).toNat
        rw [abs_six, abs_six, div_le_div_iff_of_pos_right (by norm_num)] at h
        have e : ((roundEven (x * 10 ^ 6)).toNat : ℚ) = (roundEven (x * 10 ^ 6) : ℚ) := by
          exact_mod_cast Int.toNat_of_nonneg (roundEven_nonneg hs)
        rw [e] at h
        have := roundEven_err (x * 10 ^ 6)
        rw [abs_sub_comm] at this
        exact le_trans h this
      rw [roundEven_eq_iff]
      push_cast
      rcases lt_or_eq_of_le h1 with h1 | h1
      · exact Or.inl h1
      · right
        refine ⟨h1, ?_⟩
        have : ∃ k : Nat, k ≠ N ∧ |x * 10 ^ 6 - k| = |x * 10 ^ 6 - N| := by
          rw [h1]
          rcases abs_eq (by norm_num : (0 : ℚ) ≤ 1 / 2) |>.1 h1 with h2 | h2
          · refine ⟨N + 1, by omega, ?_⟩
            rw [abs_eq (by norm_num)]
            right; push_cast; linarith
          · have hN0 : N ≠ 0 := by
              rintro rfl
              push_cast at h2
              linarith
            obtain ⟨M, rfl⟩ := Nat.exists_eq_succ_of_ne_zero hN0
            refine ⟨M, by omega, ?_⟩
            rw [abs_eq (by norm_num)]
            left; push_cast at h2; linarith
        obtain ⟨k, hk, hke⟩ := this
        obtain ⟨c', hc', hc2⟩ := htie k (by
          intro h
          rw [div_left_inj' (by norm_num)] at h
          exact hk (by exact_mod_cast h)) (by rw [abs_six, abs_six, hke])
        rw [hc] at hc'
        obtain rfl := Option.some.inj hc'
        have := hpar.1 hc2
        omega
    rw [hre, Int.toNat_natCast]
    rw [show N / 10 ^ 6 = n by omega, show N % 10 ^ 6 = digitsValue fp by omega, hp]
  · rintro rfl
    generalize hN : (roundEven (x * 10 ^ 6)).toNat = N
    have hre : roundEven (x * 10 ^ 6) = (N : ℤ) := by
      rw [← hN]; exact (Int.toNat_of_nonneg (roundEven_nonneg hs)).symm
    have hl := printPad_length 6 (N % 10 ^ 6)
    have hd := printPad_digit 6 (N % 10 ^ 6)
    refine ⟨_, _, rfl, hl, hd, ?_⟩
    obtain ⟨c, hc, hpar⟩ := last_parity hl hd (N / 10 ^ 6)
    rw [fractionValue_six _ hl, printPad_value 6 _ (Nat.mod_lt _ (by decide))] at *
    rw [show N / 10 ^ 6 * 10 ^ 6 + N % 10 ^ 6 = N by omega] at *
    constructor
    · intro k
      have := roundEven_scaled x k
      rw [hre] at this
      push_cast at this
      exact this
    · intro k hk hke
      refine ⟨c, hc, hpar.2 ?_⟩
      rw [abs_six, abs_six, div_left_inj' (by norm_num)] at hke
      rcases (roundEven_eq_iff _ _).1 hre with h | h
      · exfalso
        apply hk
        push_cast at h
        have h' := h
        rw [← hke] at h'
        rw [abs_lt] at h h'
        have a : (k : ℚ) < (N + 1 : Nat) := by push_cast; linarith [h.1, h.2, h'.1, h'.2]
        have b : (N : ℚ) < (k + 1 : Nat) := by push_cast; linarith [h.1, h.2, h'.1, h'.2]
        have a := Nat.cast_lt.1 a
        have b := Nat.cast_lt.1 b
        rw [show k = N by omega]
      · omega

/-! ### The functions -/

/-- A value of the format: the magnitude of a finite one is a number of the format. -/
def Conv.FNum.Of (f : Fmt) : FNum → Prop
  | .fin _ x => 0 ≤ x ∧ IsFloat f x ∧ x < 2 ^ f.emax
  | .inf _ => True
  | .nan _ => True

/-- The text of a value: a sign if it is negative, and the magnitude with six decimals, or a name. -/
def IsFloatText : FNum → Text → Prop
  | .fin neg x, t => ∃ u, IsSixDecimals u x ∧ t = (if neg then [45] else []) ++ u
  | .inf neg, t => t = (if neg then [45] else []) ++ [105, 110, 102]
  | .nan neg, t => t = (if neg then [45] else []) ++ [110, 97, 110]

theorem isFloatText_iff {f : Fmt} {v : FNum} (hv : v.Of f) (t : Text) : IsFloatText v t ↔ t = printF v := by
  cases v with
  | fin neg x =>
    simp only [IsFloatText, isSixDecimals_iff hv.1, printF_fin, Bool.false_eq_true, if_false, List.nil_append, exists_eq_left]
  | inf neg => simp only [IsFloatText, printF]
  | nan neg => simp only [IsFloatText, printF]

theorem floatTys_le {f : Fmt} (hf : f ∈ floatTys) :
    20 ≤ f.frac ∧ f.emin ≤ -20 ∧ f.emax ≤ 16384 ∧ (f.frac : ℤ) + 2 ≤ f.emax ∧ f.emin + f.frac + 2 ≤ f.emax := by
  simp only [floatTys, binary32, binary64, List.mem_cons, List.not_mem_nil, or_false] at hf
  rcases hf with rfl | rfl | rfl <;> decide

theorem printF_length {f : Fmt} (hf : f ∈ floatTys) {v : FNum} (hv : v.Of f) : (printF v).length ≤ 16400 := by
  obtain ⟨-, -, he, -⟩ := floatTys_le hf
  cases v with
  | fin neg x =>
    obtain ⟨h0, -, hlt⟩ := hv
    rw [printF_fin]
    obtain ⟨b, hb⟩ : ∃ b : ℕ, b = 16384 := ⟨_, rfl⟩
    obtain ⟨P, hP⟩ : ∃ P : ℕ, 2 ^ b = P := ⟨_, rfl⟩
    have h1 : x ≤ (P : ℚ) := by
      rw [← hP, Nat.cast_pow, ← zpow_natCast]
      exact le_trans hlt.le (zpow_le_zpow_right₀ (by norm_num) (by omega))
    have h2 : roundEven (x * 10 ^ 6) ≤ (P * 10 ^ 6 : ℕ) := by
      rw [← roundEven_int ((P * 10 ^ 6 : ℕ) : ℤ)]
      apply roundEven_mono
      push_cast
      exact mul_le_mul_of_nonneg_right h1 (by norm_num)
    have h3 : (roundEven (x * 10 ^ 6)).toNat / 10 ^ 6 < 10 ^ b := by
      have : (roundEven (x * 10 ^ 6)).toNat ≤ P * 10 ^ 6 := by omega
      have : P < 10 ^ b := by
        rw [← hP]
        exact Nat.pow_lt_pow_left (by norm_num) (by omega)
      generalize 10 ^ b = Q at this
      omega
    have h4 := numeral_length_le (by omega) h3
    have h5 := printPad_length 6 ((roundEven (x * 10 ^ 6)).toNat % 10 ^ 6)
    simp only [List.length_append, List.length_cons, h5]
    have : (if neg = true then [45] else ([] : Text)).length ≤ 1 := by cases neg <;> simp
    omega
  | inf neg => cases neg <;> simp [printF]
  | nan neg => cases neg <;> simp [printF]

theorem printF_nz {v : FNum} : 0 ∉ printF v := by
  cases v with
  | fin neg x =>
    rw [printF_fin]
    intro h
    rcases List.mem_append.1 h with h | h
    · cases neg <;> simp at h
    · rcases List.mem_append.1 h with h | h
      · exact absurd (numeral_digit _ h) (by decide)
      · rcases List.mem_cons.1 h with h | h
        · cases h
        · exact absurd (printPad_digit _ _ _ h) (by decide)
  | inf neg => cases neg <;> decide
  | nan neg => cases neg <;> decide

theorem fToStr_eq {f : Fmt} (hf : f ∈ floatTys) {v : FNum} (hv : v.Of f) {buf : Mem} {n : Nat} (hn : n ≤ buf.length) :
    fToStr buf n v =
      if (printF v).length < n then .ok ((printF v).map some ++ [some 0] ++ buf.drop ((printF v).length + 1)) else .exit .enforce := by
  have hl := printF_length hf hv
  unfold fToStr
  generalize printF v = t at hl
  have w1 : wadd t.length 1 = t.length + 1 := wadd_eq (by omega)
  have w2 : wsub (t.length + 1) 1 = t.length := by rw [wsub_eq (by omega) (by omega)]; omega
  simp only [w1, w2, beq_self_eq_true, enforce_true, bind_ok]
  by_cases h : t.length < n
  · have hd : decide (n ≥ t.length + 1) = true := by simpa using h
    simp only [hd, enforce_true, bind_ok, if_pos h]
    rw [writeN_ok (by simp; omega)]
    simp
  · have hd : decide (n ≥ t.length + 1) = false := by simpa using h
    simp only [hd, enforce_false, bind_exit, if_neg h]

theorem cstr_printF {f : Fmt} (hf : f ∈ floatTys) {v : FNum} (hv : v.Of f) (rest : Mem) :
    CStr ((printF v).map some ++ [some 0] ++ rest) (printF v) :=
  ⟨scanZ_eq_ok.2 ⟨⟨rest, by simp⟩, printF_nz⟩, by have := printF_length hf hv; omega⟩

theorem convStrToF_eq {z : Mem} {t : Text} (h : CStr z t) (f : Fmt) :
    strToF f z = .ok (if ∀ c ∈ t, IsDigit c ∨ c = 46 then strtod f t else .fin false 0) := by
  have hn := numericLoop_ok h.text t.length 0 (by omega)
  simp only [List.drop_zero, List.take_length] at hn
  simp only [strToF, Str.createStatic, strlen_ok h.text, bind_ok, Str.isNumeric, hn]
  by_cases hc : ∀ c ∈ t, IsDigit c ∨ c = 46
  · have hall : (t.all fun x => isdigit x || x == 46) = true := by
      simp only [List.all_eq_true, Bool.or_eq_true, isdigit_iff, beq_iff_eq]
      exact hc
    simp only [hall, Bool.not_true, Bool.false_eq_true, if_false, h.text, bind_ok, if_pos hc]
  · have hall : (t.all fun x => isdigit x || x == 46) = false := by
      rw [Bool.eq_false_iff]
      intro hx
      simp only [List.all_eq_true, Bool.or_eq_true, isdigit_iff, beq_iff_eq] at hx
      exact hc hx
    simp only [hall, Bool.not_false, if_true, if_neg hc]

theorem leadDigits_append {ds rest : Text} (hd : ∀ c ∈ ds, IsDigit c) (hr : ∀ c r, rest = c :: r → ¬ IsDigit c) :
    leadDigits (ds ++ rest) = ds := by
  unfold leadDigits
  rw [List.takeWhile_append_of_pos (fun c hc => (isdigit_iff c).2 (hd c hc))]
  cases rest with
  | nil => simp
  | cons c r =>
    rw [List.takeWhile_cons_of_neg (by rw [isdigit_iff]; exact hr c r rfl), List.append_nil]

/-! ### Overflow -/

/-- The values from which on rounding overflows. -/
theorem rnd_lt_iff {f : Fmt} (hp : f.emin + f.frac + 2 ≤ f.emax) {q : ℚ} (hq : 0 ≤ q) :
    rnd f q < 2 ^ f.emax ↔ q < 2 ^ f.emax - 2 ^ (f.emax - f.frac - 2) := by
  have e1 : (2 : ℚ) ^ f.emax = 2 ^ (f.frac + 1) * 2 ^ (f.emax - f.frac - 1) := by
    rw [← zpow_natCast, ← zpow_add₀ (by norm_num)]
    congr 1; push_cast; omega
  have e2 : (2 : ℚ) ^ (f.emax - f.frac - 1) = 2 * 2 ^ (f.emax - f.frac - 2) := by
    rw [show f.emax - f.frac - 1 = 1 + (f.emax - f.frac - 2) by omega, zpow_add₀ (by norm_num), zpow_one]
  have hu : (0 : ℚ) < 2 ^ (f.emax - f.frac - 2) := zpow_pos (by norm_num) _
  have hM : IsFloat f (2 ^ f.emax - 2 ^ (f.emax - f.frac - 1)) := by
    have := isFloat_int_mul (f := f) (n := 2 ^ (f.frac + 1) - 1) (k := f.emax - f.frac - 1) (by
      rw [abs_of_nonneg] <;> have : (1 : ℤ) ≤ 2 ^ (f.frac + 1) := one_le_pow₀ (by norm_num)
      · omega
      · omega) (by omega)
    convert this using 1
    push_cast
    rw [e1]; ring
  constructor
  · intro h
    by_contra hc
    have hc := not_lt.1 hc
    have h1 : rnd f (2 ^ f.emax - 2 ^ (f.emax - f.frac - 2)) ≤ rnd f q := rnd_mono f hc
    have h2 : rnd f (2 ^ f.emax - 2 ^ (f.emax - f.frac - 2)) = ((2 ^ (f.frac + 1) : ℤ) : ℚ) * 2 ^ (f.emax - 1 - f.frac) := by
      have e3 : f.emax - 1 - f.frac = f.emax - f.frac - 1 := by omega
      have e4 : (2 : ℚ) ^ f.emax = 2 * 2 ^ (f.emax - 1) := by
        rw [show f.emax = 1 + (f.emax - 1) by omega, zpow_add₀ (by norm_num), zpow_one]
        congr 2; omega
      have e5 : (2 : ℚ) ^ (f.emax - f.frac - 2) ≤ 2 ^ (f.emax - 1) := zpow_le_zpow_right₀ (by norm_num) (by omega)
      apply rnd_eval f (f.emax - 1)
      · linarith
      · rw [show f.emax - 1 + 1 = f.emax by omega]; linarith
      · omega
      · rw [roundEven_eq_iff]
        right
        constructor
        · rw [e3, e1, e2, show ((2 : ℚ) ^ (f.frac + 1) * (2 * 2 ^ (f.emax - f.frac - 2)) - 2 ^ (f.emax - f.frac - 2)) / (2 * 2 ^ (f.emax - f.frac - 2)) =
            2 ^ (f.frac + 1) - 1 / 2 by field_simp]
          push_cast
          rw [show (2 : ℚ) ^ (f.frac + 1) - 1 / 2 - 2 ^ (f.frac + 1) = -(1 / 2) by ring, abs_neg, abs_of_pos (by norm_num)]
        · rw [pow_succ]; omega
    rw [h2, show f.emax - 1 - f.frac = f.emax - f.frac - 1 by omega] at h1
    push_cast at h1
    rw [← e1] at h1
    linarith
  · intro h
    by_contra hc
    have hc := not_lt.1 hc
    rcases le_or_gt q (2 ^ f.emax - 2 ^ (f.emax - f.frac - 1)) with h1 | h1
    · have := rnd_mono f h1
      rw [rnd_of_float hM] at this
      linarith [zpow_pos (show (0 : ℚ) < 2 by norm_num) (f.emax - f.frac - 1)]
    · have := rnd_nearest (x := q) hM
      rw [abs_of_nonneg (by linarith), abs_of_neg (by linarith)] at this
      linarith

theorem fl_nonneg {f : Fmt} {q : ℚ} (hp : f.emin + f.frac + 2 ≤ f.emax) (hq : 0 ≤ q) :
    fl f q = if q < 2 ^ f.emax - 2 ^ (f.emax - f.frac - 2) then some (rnd f q) else none := by
  unfold fl
  rw [abs_of_nonneg (rnd_nonneg f hq)]
  by_cases h : rnd f q < 2 ^ f.emax
  · rw [if_pos h, if_pos ((rnd_lt_iff hp hq).1 h)]
  · rw [if_neg h, if_neg (fun hc => h ((rnd_lt_iff hp hq).2 hc))]

/-! ### C90 -/

/-- **C90** The three types: single, double and extended precision with 24, 53 and 64 binary digits, the smallest positive numbers 2^-149, 2^-1074 and 2^-16445,
and all numbers below 2^128, 2^1024 and 2^16384. -/
theorem C90_types (f : Fmt) : f ∈ floatTys ↔
    f.frac + 1 = 24 ∧ f.emin = -149 ∧ f.emax = 128 ∨ f.frac + 1 = 53 ∧ f.emin = -1074 ∧ f.emax = 1024 ∨ f.frac + 1 = 64 ∧ f.emin = -16445 ∧ f.emax = 16384 := by
  obtain ⟨a, b, c⟩ := f
  simp only [floatTys, binary32, binary64, List.mem_cons, List.not_mem_nil, or_false, Fmt.mk.injEq]
  omega

/-- **C90** Every value of the three types is written as its text with a terminator, the rest of the buffer stays; a buffer that is too small terminates the program. -/
theorem C90_to_str {f : Fmt} (hf : f ∈ floatTys) {v : FNum} (hv : v.Of f) {buf : Mem} {n : Nat} (hn : n ≤ buf.length) {t : Text} (ht : IsFloatText v t) :
    fToStr buf n v = if t.length < n then .ok (t.map some ++ [some 0] ++ buf.drop (t.length + 1)) else .exit .enforce := by
  rw [isFloatText_iff hv] at ht
  rw [ht, fToStr_eq hf hv hn]

/-- **C90** Every value of the three types has exactly one text, of at most 16400 characters. -/
theorem C90_text {f : Fmt} (hf : f ∈ floatTys) {v : FNum} (hv : v.Of f) : ∃ t, IsFloatText v t ∧ t.length ≤ 16400 ∧ ∀ t', IsFloatText v t' → t' = t := by
  refine ⟨printF v, (isFloatText_iff hv _).2 rfl, printF_length hf hv, fun t' h => (isFloatText_iff hv _).1 h⟩

example : fToStr (List.replicate 10 none) 10 (.fin true (13421773 / 134217728)) = .ok ([45, 48, 46, 49, 48, 48, 48, 48, 48, 0].map some) ∧
    fToStr (List.replicate 10 none) 9 (.fin true (13421773 / 134217728)) = .exit .enforce ∧
    fToStr (List.replicate 5 none) 5 (.inf false) = .ok [some 105, some 110, some 102, some 0, none] := by decide +kernel
example : (FNum.fin true (13421773 / 134217728)).Of binary32 :=
  ⟨by norm_num, ⟨13421773, -27, by norm_num [binary32], by decide, by norm_num⟩, by norm_num [binary32]⟩
/-- A tie: 1/128 is 0.0078125. -/
example : printF (.fin false (1 / 128)) = [48, 46, 48, 48, 55, 56, 49, 50] ∧ printF (.fin false (3 / 128)) = [48, 46, 48, 50, 51, 52, 51, 56] := by decide +kernel

theorem strtod_parts {f : Fmt} {ip fp rest : Text} (hp : f.emin + f.frac + 2 ≤ f.emax) (hi : ∀ c ∈ ip, IsDigit c) (hfp : ∀ c ∈ fp, IsDigit c)
    (hr : ∀ c r, rest = c :: r → ¬ IsDigit c) :
    strtod f (ip ++ 46 :: (fp ++ rest)) =
      if fractionValue ip fp < 2 ^ f.emax - 2 ^ (f.emax - f.frac - 2) then .fin false (rnd f (fractionValue ip fp)) else .inf false := by
  have h1 : leadDigits (ip ++ 46 :: (fp ++ rest)) = ip := leadDigits_append hi (by rintro c r h; obtain rfl := (List.cons.inj h).1; decide)
  have h2 : leadDigits (fp ++ rest) = fp := leadDigits_append hfp hr
  have h3 : digitsVal 0 (ip ++ fp) = digitsValue (ip ++ fp) := by
    have := digitsVal_append (ip ++ fp) 0 [] (fun c hc => (List.mem_append.1 hc).elim (hi c) (hfp c)) (by simp)
    rw [List.append_nil] at this
    omega
  unfold strtod
  simp only [h1, List.drop_left, h2, h3]
  rw [show (digitsValue (ip ++ fp) : ℚ) / 10 ^ fp.length = fractionValue ip fp from rfl, fl_nonneg hp (by unfold fractionValue; positivity)]
  split <;> rename_i h
  · split at h
    · rename_i hlt
      rw [if_pos hlt, ← Option.some.inj h]
    · cases h
  · split at h
    · cases h
    · rename_i hlt
      rw [if_neg hlt]

theorem strtod_whole {f : Fmt} {ip : Text} (hp : f.emin + f.frac + 2 ≤ f.emax) (hi : ∀ c ∈ ip, IsDigit c) :
    strtod f ip = if (digitsValue ip : ℚ) < 2 ^ f.emax - 2 ^ (f.emax - f.frac - 2) then .fin false (rnd f (digitsValue ip)) else .inf false := by
  have h1 : leadDigits ip = ip := by
    have := leadDigits_append (rest := []) hi (by simp)
    rwa [List.append_nil] at this
  have h3 : digitsVal 0 ip = digitsValue ip := by
    have := digitsVal_append ip 0 [] hi (by simp)
    rw [List.append_nil] at this
    omega
  unfold strtod
  simp only [h1, List.drop_length, List.append_nil, h3, List.length_nil, pow_zero, div_one]
  rw [fl_nonneg hp (by positivity)]
  split <;> rename_i h
  · split at h
    · rename_i hlt
      rw [if_pos hlt, ← Option.some.inj h]
    · cases h
  · split at h
    · cases h
    · rename_i hlt
      rw [if_neg hlt]

/-- **C90** A text of digits, a dot and digits, perhaps followed by another dot and more digits and dots, becomes the number denoted, rounded once to the type; from
half a unit below the first power of two beyond the type on it becomes infinite.  Either group of digits may be empty. -/
theorem C90_value {f : Fmt} (hf : f ∈ floatTys) {z : Mem} {ip fp rest : Text} (h : CStr z (ip ++ 46 :: (fp ++ rest))) (hi : ∀ c ∈ ip, IsDigit c)
    (hfp : ∀ c ∈ fp, IsDigit c) (hr : rest = [] ∨ ∃ r, rest = 46 :: r ∧ ∀ c ∈ r, IsDigit c ∨ c = 46) :
    strToF f z = .ok (if fractionValue ip fp < 2 ^ f.emax - 2 ^ (f.emax - f.frac - 2) then .fin false (rnd f (fractionValue ip fp)) else .inf false) := by
  rw [convStrToF_eq h, if_pos, strtod_parts (floatTys_le hf).2.2.2.2 hi hfp]
  · rintro c r rfl
    rcases hr with hr | ⟨r', hr, -⟩
    · cases hr
    · obtain rfl := (List.cons.inj hr).1
      decide
  · intro c hc
    rcases List.mem_append.1 hc with hc | hc
    · exact Or.inl (hi c hc)
    · rcases List.mem_cons.1 hc with rfl | hc
      · exact Or.inr rfl
      · rcases List.mem_append.1 hc with hc | hc
        · exact Or.inl (hfp c hc)
        · rcases hr with rfl | ⟨r, rfl, hr⟩
          · cases hc
          · rcases List.mem_cons.1 hc with rfl | hc
            · exact Or.inr rfl
            · exact hr c hc

/-- **C90** The same for digits without a dot. -/
theorem C90_value_whole {f : Fmt} (hf : f ∈ floatTys) {z : Mem} {ip : Text} (h : CStr z ip) (hi : ∀ c ∈ ip, IsDigit c) :
    strToF f z = .ok (if (digitsValue ip : ℚ) < 2 ^ f.emax - 2 ^ (f.emax - f.frac - 2) then .fin false (rnd f (digitsValue ip)) else .inf false) := by
  rw [convStrToF_eq h, if_pos (fun c hc => Or.inl (hi c hc)), strtod_whole (floatTys_le hf).2.2.2.2 hi]

example : strToF binary32 ([48, 46, 49, 48, 0].map some) = .ok (.fin false (13421773 / 134217728)) := by decide +kernel
example : strToF binary64 ([46, 53, 46, 55, 0].map some) = .ok (.fin false (1 / 2)) ∧ strToF binary64 ([46, 0].map some) = .ok (.fin false 0) ∧
    strToF binary64 [some 0] = .ok (.fin false 0) := by decide +kernel
example : strToF binary32 (List.replicate 39 (some 57) ++ [some 0]) = .ok (.inf false) := by decide +kernel

/-- **C90** A text with a character other than a digit or a dot gives 0. -/
theorem C90_not_numeric {z : Mem} {t : Text} (h : CStr z t) {c : UInt8} (hc : c ∈ t) (hd : ¬ IsDigit c) (hp : c ≠ 46) (f : Fmt) :
    strToF f z = .ok (.fin false 0) := by
  rw [convStrToF_eq h, if_neg]
  intro hx
  rcases hx c hc with h1 | h1
  · exact hd h1
  · exact hp h1

/-- The number read is a number of the format closest to the one denoted. -/
theorem C90_nearest (f : Fmt) (q : ℚ) : IsNearest f q (rnd f q) := ⟨rnd_isFloat f q, fun _ h => rnd_nearest h⟩

/-! ### C91 -/

theorem max_float_le {f : Fmt} (h4 : (f.frac : ℤ) + 2 ≤ f.emax) {x : ℚ} (h0 : 0 ≤ x) (hx : IsFloat f x) (hlt : x < 2 ^ f.emax) :
    x ≤ 2 ^ f.emax - 2 ^ (f.emax - f.frac - 1) := by
  obtain ⟨m, e, hm, he, rfl⟩ := hx
  have hp : (0 : ℚ) < 2 ^ e := zpow_pos (by norm_num) _
  have hm0 : 0 ≤ m := by
    by_contra hc
    have : (m : ℚ) * 2 ^ e < 0 := mul_neg_of_neg_of_pos (by exact_mod_cast not_le.1 hc) hp
    linarith
  rw [abs_of_nonneg hm0] at hm
  rcases le_or_gt (f.emax - f.frac - 1) e with h | h
  · obtain ⟨d, hd⟩ : ∃ d : ℕ, e = f.emax - f.frac - 1 + d := ⟨(e - (f.emax - f.frac - 1)).toNat, by omega⟩
    have e1 : (2 : ℚ) ^ f.emax = 2 ^ (f.frac + 1) * 2 ^ (f.emax - f.frac - 1) := by
      rw [← zpow_natCast, ← zpow_add₀ (by norm_num)]
      congr 1; push_cast; omega
    have e2 : (2 : ℚ) ^ e = 2 ^ d * 2 ^ (f.emax - f.frac - 1) := by
      rw [← zpow_natCast, ← zpow_add₀ (by norm_num)]
      congr 1; omega
    have hu : (0 : ℚ) < 2 ^ (f.emax - f.frac - 1) := zpow_pos (by norm_num) _
    rw [e1, e2, ← mul_assoc] at hlt
    rw [e1, e2, ← mul_assoc]
    have h1 : m * 2 ^ d < 2 ^ (f.frac + 1) := by exact_mod_cast lt_of_mul_lt_mul_right hlt hu.le
    have h2 : ((m * 2 ^ d + 1 : ℤ) : ℚ) ≤ (2 ^ (f.frac + 1) : ℤ) := by exact_mod_cast h1
    have := mul_le_mul_of_nonneg_right h2 hu.le
    push_cast at this
    linarith
  · have h1 : ((m + 1 : ℤ) : ℚ) ≤ (2 ^ (f.frac + 1) : ℤ) := by exact_mod_cast hm
    have h2 : (2 : ℚ) ^ e ≤ 2 ^ (f.emax - f.frac - 2) := zpow_le_zpow_right₀ (by norm_num) (by omega)
    push_cast at h1
    have e3 : (2 : ℚ) ^ f.emax = 2 ^ (f.frac + 1) * 2 ^ (f.emax - f.frac - 2) * 2 := by
      rw [← zpow_natCast, ← zpow_add₀ (by norm_num), ← zpow_add_one₀ (by norm_num)]
      congr 1; push_cast; omega
    have e4 : (2 : ℚ) ^ (f.emax - f.frac - 1) ≤ 2 ^ (f.emax - 1) := zpow_le_zpow_right₀ (by norm_num) (by omega)
    have e5 : (2 : ℚ) ^ f.emax = 2 ^ (f.emax - 1) * 2 := by rw [← zpow_add_one₀ (by norm_num)]; congr 1; omega
    have h3 : (m : ℚ) * 2 ^ e ≤ 2 ^ (f.frac + 1) * 2 ^ (f.emax - f.frac - 2) :=
      mul_le_mul (by linarith) h2 hp.le (by positivity)
    linarith

theorem roundtrip_float {f : Fmt} (hf : f ∈ floatTys) {x : ℚ} (hv : (FNum.fin false x).Of f) {buf buf' : Mem} {n : Nat}
    (hn : n ≤ buf.length) (h : fToStr buf n (.fin false x) = .ok buf') :
    strToF f buf' = .ok (.fin false (rnd f (roundEven (x * 10 ^ 6) / 10 ^ 6))) := by
  obtain ⟨h1, h2, h3, h4, h5⟩ := floatTys_le hf
  have hx0 : 0 ≤ x := hv.1
  have hs : 0 ≤ x * 10 ^ 6 := mul_nonneg hx0 (by norm_num)
  rw [fToStr_eq hf hv hn] at h
  split at h
  · obtain rfl := Out.ok.inj h
    have hc := cstr_printF hf hv (buf.drop ((printF (.fin false x)).length + 1))
    have hpf := printF_fin false x
    simp only [Bool.false_eq_true, if_false, List.nil_append] at hpf
    generalize hN : (roundEven (x * 10 ^ 6)).toNat = N at hpf
    have hre : (roundEven (x * 10 ^ 6) : ℚ) = N := by
      rw [← hN]; exact_mod_cast (Int.toNat_of_nonneg (roundEven_nonneg hs)).symm
    have hfv : fractionValue (numeral (N / 10 ^ 6)) (printPad 6 6 (N % 10 ^ 6)) = N / 10 ^ 6 := by
      rw [fractionValue_six _ (printPad_length 6 _), printPad_value 6 _ (Nat.mod_lt _ (by decide)), show N / 10 ^ 6 * 10 ^ 6 + N % 10 ^ 6 = N by omega]
    have hv' := C90_value hf (z := (printF (.fin false x)).map some ++ [some 0] ++ buf.drop ((printF (.fin false x)).length + 1))
      (ip := numeral (N / 10 ^ 6)) (fp := printPad 6 6 (N % 10 ^ 6)) (rest := []) (by rw [List.append_nil, ← hpf]; exact hc) numeral_digit (printPad_digit 6 _) (Or.inl rfl)
    rw [hv', hfv, hre, if_pos]
    have hmax := max_float_le h4 hx0 hv.2.1 hv.2.2
    have hi : ∀ j : ℤ, 0 ≤ j → ∃ m : ℤ, (2 : ℚ) ^ j = m := fun j hj => ⟨2 ^ j.toNat, by
      push_cast
      rw [← zpow_natCast, Int.toNat_of_nonneg hj]⟩
    obtain ⟨a, ha⟩ := hi f.emax (by omega)
    obtain ⟨b, hb⟩ := hi (f.emax - f.frac - 1) (by omega)
    have hle : (N : ℚ) ≤ (a - b) * 10 ^ 6 := by
      have := roundEven_mono (mul_le_mul_of_nonneg_right hmax (show (0 : ℚ) ≤ 10 ^ 6 by norm_num))
      rw [ha, hb, show ((a : ℚ) - b) * 10 ^ 6 = (((a - b) * 10 ^ 6 : ℤ) : ℚ) by push_cast; ring, roundEven_int] at this
      rw [← hre]
      exact_mod_cast this
    have hlt : (2 : ℚ) ^ (f.emax - f.frac - 2) < 2 ^ (f.emax - f.frac - 1) := zpow_lt_zpow_right₀ (by norm_num) (by omega)
    have : (N : ℚ) / 10 ^ 6 ≤ a - b := by rw [div_le_iff₀ (by norm_num)]; exact hle
    rw [ha]
    rw [hb] at hlt
    linarith
  · cases h

/-- Numbers whose distance is more than a millionth are found again. -/
theorem rnd_six_wide {f : Fmt} (hf : 20 ≤ f.frac) (he : f.emin ≤ -20) {x : ℚ} (hx : IsFloat f x) (hlo : 2 ^ ((f.frac : ℤ) - 19) ≤ x) :
    rnd f (roundEven (x * 10 ^ 6) / 10 ^ 6) = x := by
  have hxp : 0 < x := lt_of_lt_of_le (zpow_pos (by norm_num) _) hlo
  by_cases hint : ∃ m : ℤ, x = m
  · obtain ⟨m, hm'⟩ := hint
    have : x = ((m * 10 ^ 6 : ℤ) : ℚ) / 10 ^ 6 := by rw [hm']; push_cast; ring
    rw [roundEven_six this, ← this]
    exact rnd_of_float hx
  have hL : (f.frac : ℤ) - 19 ≤ Int.log 2 x := by
    have : (2 : ℚ) ^ ((f.frac : ℤ) - 19) < 2 ^ (Int.log 2 x + 1) := lt_of_le_of_lt hlo (lt_zpow_self x)
    have := (zpow_lt_zpow_iff_right₀ (by norm_num : (1 : ℚ) < 2)).1 this
    omega
  have h1 := zpow_le_self hxp
  have h2 := lt_zpow_self x
  generalize hLe : Int.log 2 x = L at *
  have hm : max (L - f.frac) f.emin = L - f.frac := max_eq_left (by omega)
  have hu0 : (0 : ℚ) < 2 ^ (L - f.frac) := zpow_pos (by norm_num) _
  have hu6 : (1 : ℚ) / 10 ^ 6 < 2 ^ (L - f.frac) :=
    lt_of_lt_of_le (by norm_num : (1 : ℚ) / 10 ^ 6 < 2 ^ (-19 : ℤ)) (zpow_le_zpow_right₀ (by norm_num) (by omega))
  have hxe : x = roundEven (x / 2 ^ (L - f.frac)) * 2 ^ (L - f.frac) := by
    conv_lhs => rw [← rnd_of_float hx, rnd, if_pos hxp.le, rndPos, quantum, hLe, hm]
  generalize roundEven (x / 2 ^ (L - f.frac)) = n at hxe
  have p2 : ∀ j : ℤ, 0 ≤ j → ∃ m : ℤ, (2 : ℚ) ^ j = m := fun j hj => ⟨2 ^ j.toNat, by
    push_cast
    rw [← zpow_natCast, Int.toNat_of_nonneg hj]⟩
  have eL : (2 : ℚ) ^ L = (2 ^ f.frac : ℤ) * 2 ^ (L - f.frac) := by
    push_cast
    rw [← zpow_natCast, ← zpow_add₀ (by norm_num)]
    congr 1; omega
  have eL1 : (2 : ℚ) ^ (L + 1) = (2 ^ (f.frac + 1) : ℤ) * 2 ^ (L - f.frac) := by
    push_cast
    rw [← zpow_natCast, ← zpow_add₀ (by norm_num)]
    congr 1; push_cast; omega
  have hx1 : (2 : ℚ) ^ L + 2 ^ (L - f.frac) ≤ x := by
    have a : (2 ^ f.frac : ℤ) * 2 ^ (L - f.frac) ≤ (n : ℚ) * 2 ^ (L - f.frac) := by rw [← eL, ← hxe]; exact h1
    have b : 2 ^ f.frac ≤ n := by exact_mod_cast le_of_mul_le_mul_right a hu0
    have c : n ≠ 2 ^ f.frac := by
      intro hc
      apply hint
      rw [hxe, hc, ← eL]
      exact p2 L (by omega)
    have : ((2 ^ f.frac + 1 : ℤ) : ℚ) ≤ n := by exact_mod_cast (show 2 ^ f.frac + 1 ≤ n by omega)
    have := mul_le_mul_of_nonneg_right this hu0.le
    rw [hxe, eL]
    push_cast at this ⊢
    linarith
  have hx2 : x + 2 ^ (L - f.frac) ≤ (2 : ℚ) ^ (L + 1) := by
    have a : (n : ℚ) * 2 ^ (L - f.frac) < (2 ^ (f.frac + 1) : ℤ) * 2 ^ (L - f.frac) := by rw [← eL1, ← hxe]; exact h2
    have b : n < 2 ^ (f.frac + 1) := by exact_mod_cast lt_of_mul_lt_mul_right a hu0.le
    have : ((n + 1 : ℤ) : ℚ) ≤ (2 ^ (f.frac + 1) : ℤ) := by exact_mod_cast b
    have := mul_le_mul_of_nonneg_right this hu0.le
    rw [hxe, eL1]
    push_cast at this ⊢
    linarith
  have hd : |(roundEven (x * 10 ^ 6) : ℚ) / 10 ^ 6 - x| < 2 ^ (L - f.frac) / 2 := by
    rw [abs_six, abs_sub_comm]
    have := roundEven_err (x * 10 ^ 6)
    rw [div_lt_iff₀ (by norm_num)]
    rw [div_lt_iff₀ (by norm_num)] at hu6
    linarith
  generalize (roundEven (x * 10 ^ 6) : ℚ) / 10 ^ 6 = q' at hd
  rw [abs_lt] at hd
  have hq1 : (2 : ℚ) ^ L ≤ q' := by linarith [hd.1]
  have hq2 : q' < (2 : ℚ) ^ (L + 1) := by linarith [hd.2]
  rw [rnd, if_pos (le_trans (zpow_pos (by norm_num) _).le hq1), rndPos, quantum_eq f hq1 hq2, hm]
  have : roundEven (q' / 2 ^ (L - f.frac)) = n := by
    rw [roundEven_eq_iff]
    left
    rw [show q' / 2 ^ (L - f.frac) - n = (q' - n * 2 ^ (L - f.frac)) / 2 ^ (L - f.frac) by field_simp, ← hxe, abs_div, abs_of_pos hu0, div_lt_iff₀ hu0, abs_lt]
    constructor <;> linarith [hd.1, hd.2]
  rw [this, ← hxe]

/-- **C91** (partial: values that are not negative.  The full property, for all finite values, is false: see `C91_negative_becomes_zero`.)  Converting to text and back
changes the value by at most a millionth. -/
theorem C91_round_trip_partial {f : Fmt} (hf : f ∈ floatTys) {x : ℚ} (hv : (FNum.fin false x).Of f) {buf buf' : Mem} {n : Nat}
    (hn : n ≤ buf.length) (h : fToStr buf n (.fin false x) = .ok buf') :
    ∃ y, strToF f buf' = .ok (.fin false y) ∧ (FNum.fin false y).Of f ∧ |y - x| ≤ 1 / 10 ^ 6 := by
  obtain ⟨h1, h2, h3, h4, h5⟩ := floatTys_le hf
  obtain ⟨hx0, hxf, hlt⟩ := hv
  refine ⟨_, roundtrip_float hf ⟨hx0, hxf, hlt⟩ hn h, ⟨?_, rnd_isFloat f _, ?_⟩, ?_⟩
  · exact rnd_nonneg f (div_nonneg (by exact_mod_cast roundEven_nonneg (mul_nonneg hx0 (by norm_num))) (by norm_num))
  · rcases le_or_gt (2 ^ ((f.frac : ℤ) - 19)) x with hw | hw
    · rw [rnd_six_wide h1 h2 hxf hw]; exact hlt
    · have hle : (roundEven (x * 10 ^ 6) : ℚ) / 10 ^ 6 ≤ 2 ^ ((f.frac : ℤ) - 19) := by
        have e : (2 : ℚ) ^ ((f.frac : ℤ) - 19) = ((2 ^ (f.frac - 19) : ℤ) : ℚ) := by
          push_cast
          rw [← zpow_natCast]
          congr 1; omega
        rw [e] at hw ⊢
        rw [div_le_iff₀ (by norm_num)]
        have := roundEven_mono (mul_le_mul_of_nonneg_right hw.le (show (0 : ℚ) ≤ 10 ^ 6 by norm_num))
        rw [show ((2 ^ (f.frac - 19) : ℤ) : ℚ) * 10 ^ 6 = ((2 ^ (f.frac - 19) * 10 ^ 6 : ℤ) : ℚ) by push_cast; ring, roundEven_int] at this
        exact_mod_cast this
      have hfl : IsFloat f (2 ^ ((f.frac : ℤ) - 19)) := by
        have := isFloat_int_mul (f := f) (n := 1) (k := (f.frac : ℤ) - 19) (by rw [abs_one]; exact one_le_pow₀ (by norm_num)) (by omega)
        rwa [Int.cast_one, one_mul] at this
      have := rnd_mono f hle
      rw [rnd_of_float hfl] at this
      exact lt_of_le_of_lt this (zpow_lt_zpow_right₀ (by norm_num) (by omega))
  · have a := rnd_nearest (x := (roundEven (x * 10 ^ 6) : ℚ) / 10 ^ 6) hxf
    have b : |(roundEven (x * 10 ^ 6) : ℚ) / 10 ^ 6 - x| ≤ 1 / 10 ^ 6 / 2 := by
      rw [abs_six, abs_sub_comm, div_le_iff₀ (by norm_num)]
      have := roundEven_err (x * 10 ^ 6)
      linarith
    rw [abs_sub_comm x] at a
    have c := abs_sub_le (rnd f ((roundEven (x * 10 ^ 6) : ℚ) / 10 ^ 6)) ((roundEven (x * 10 ^ 6) : ℚ) / 10 ^ 6) x
    linarith

/-- **C91** Exactly the numbers of the format closest to some number with six decimals survive. -/
theorem C91_exact_iff {f : Fmt} (hf : f ∈ floatTys) {x : ℚ} (hv : (FNum.fin false x).Of f) {buf buf' : Mem} {n : Nat}
    (hn : n ≤ buf.length) (h : fToStr buf n (.fin false x) = .ok buf') :
    strToF f buf' = .ok (.fin false x) ↔ ∃ k : Nat, rnd f (k / 10 ^ 6) = x := by
  obtain ⟨h1, h2, -⟩ := floatTys_le hf
  rw [roundtrip_float hf hv hn h]
  constructor
  · intro he
    obtain ⟨-, he⟩ := FNum.fin.inj (Out.ok.inj he)
    refine ⟨(roundEven (x * 10 ^ 6)).toNat, ?_⟩
    have : ((roundEven (x * 10 ^ 6)).toNat : ℚ) = (roundEven (x * 10 ^ 6) : ℚ) := by
      exact_mod_cast Int.toNat_of_nonneg (roundEven_nonneg (mul_nonneg hv.1 (by norm_num)))
    rw [this, he]
  · rintro ⟨k, hk⟩
    rw [rnd_six_rnd h1 h2 (k := k) (by omega) (by rw [Int.cast_natCast]; exact hk)]

/-- **C91** Every multiple of 1/64 (every whole number in particular) survives, and every number from `2 ^ (frac - 19)` on: 16 for `float`, `2 ^ 33` for `double`,
`2 ^ 44` for `long double`. -/
theorem C91_exact {f : Fmt} (hf : f ∈ floatTys) {x : ℚ} (hv : (FNum.fin false x).Of f) {buf buf' : Mem} {n : Nat}
    (hn : n ≤ buf.length) (h : fToStr buf n (.fin false x) = .ok buf') (hx : (∃ m : Nat, x = m / 64) ∨ 2 ^ ((f.frac : ℤ) - 19) ≤ x) :
    strToF f buf' = .ok (.fin false x) := by
  obtain ⟨h1, h2, -⟩ := floatTys_le hf
  rw [roundtrip_float hf hv hn h]
  rcases hx with ⟨m, hm⟩ | hx
  · have : x = ((15625 * m : ℤ) : ℚ) / 10 ^ 6 := by rw [hm]; push_cast; ring
    rw [roundEven_six this, ← this, rnd_of_float hv.2.1]
  · rw [rnd_six_wide h1 h2 hv.2.1 hx]

/-- **C91** Conversion to text and back keeps the order, except that different numbers may become equal. -/
theorem C91_mono {f : Fmt} (hf : f ∈ floatTys) {x x' : ℚ} (hv : (FNum.fin false x).Of f) (hv' : (FNum.fin false x').Of f) (hle : x ≤ x')
    {buf buf' b b' : Mem} {n n' : Nat} (hn : n ≤ buf.length) (hn' : n' ≤ b.length)
    (h : fToStr buf n (.fin false x) = .ok buf') (h' : fToStr b n' (.fin false x') = .ok b') :
    ∃ y y', strToF f buf' = .ok (.fin false y) ∧ strToF f b' = .ok (.fin false y') ∧ y ≤ y' := by
  refine ⟨_, _, roundtrip_float hf hv hn h, roundtrip_float hf hv' hn' h', rnd_mono f ?_⟩
  exact div_le_div_of_nonneg_right (by exact_mod_cast roundEven_mono (mul_le_mul_of_nonneg_right hle (by norm_num))) (by norm_num)

/-- **C91** Numbers up to half a millionth are lost: they come back as 0. -/
theorem C91_small_lost {f : Fmt} (hf : f ∈ floatTys) {x : ℚ} (hv : (FNum.fin false x).Of f) (hx : x ≤ 1 / (2 * 10 ^ 6)) {buf buf' : Mem} {n : Nat}
    (hn : n ≤ buf.length) (h : fToStr buf n (.fin false x) = .ok buf') : strToF f buf' = .ok (.fin false 0) := by
  rw [roundtrip_float hf hv hn h]
  have : roundEven (x * 10 ^ 6) = 0 := by
    rw [roundEven_eq_iff]
    have h0 := hv.1
    have h1 : x * 10 ^ 6 ≤ 1 / 2 := by linarith
    rw [Int.cast_zero, sub_zero, abs_of_nonneg (by positivity)]
    rcases lt_or_eq_of_le h1 with h2 | h2
    · exact Or.inl h2
    · exact Or.inr ⟨h2, rfl⟩
  rw [this]
  simp

/-- **C91** (counterexample, for every negative value, infinity and NaN) The text of a negative value (-0 included) is converted back to 0, because the minus sign does
not count as numeric; so is that of an infinity or of NaN. -/
theorem C91_negative_becomes_zero {f : Fmt} (hf : f ∈ floatTys) {v : FNum} (hv : v.Of f) (hneg : ∀ x, v ≠ .fin false x) {buf buf' : Mem} {n : Nat}
    (hn : n ≤ buf.length) (h : fToStr buf n v = .ok buf') : strToF f buf' = .ok (.fin false 0) := by
  rw [fToStr_eq hf hv hn] at h
  split at h
  · obtain rfl := Out.ok.inj h
    have hc := cstr_printF hf hv (buf.drop ((printF v).length + 1))
    have key : ∃ c ∈ printF v, ¬ IsDigit c ∧ c ≠ 46 := by
      cases v with
      | fin neg x =>
        cases neg with
        | false => exact absurd rfl (hneg x)
        | true => exact ⟨45, by rw [printF_fin]; simp, by decide, by decide⟩
      | inf neg => exact ⟨102, by simp [printF], by decide, by decide⟩
      | nan neg => exact ⟨97, by simp [printF], by decide, by decide⟩
    obtain ⟨c, hc1, hc2, hc3⟩ := key
    exact C90_not_numeric hc hc1 hc2 hc3 f
  · cases h

/-- 0.1 as a `float` survives; 0.3 rounded to `float`, which is 0.3000000119…, does not survive as a `double`. -/
example : fToStr (List.replicate 9 none) 9 (.fin false (13421773 / 134217728)) = .ok ([48, 46, 49, 48, 48, 48, 48, 48, 0].map some) ∧
    strToF binary32 ([48, 46, 49, 48, 48, 48, 48, 48, 0].map some) = .ok (.fin false (13421773 / 134217728)) ∧
    fToStr (List.replicate 9 none) 9 (.fin false (10066330 / 33554432)) = .ok ([48, 46, 51, 48, 48, 48, 48, 48, 0].map some) ∧
    strToF binary64 ([48, 46, 51, 48, 48, 48, 48, 48, 0].map some) ≠ .ok (.fin false (10066330 / 33554432)) := by decide +kernel
example : (FNum.fin false (10066330 / 33554432)).Of binary64 :=
  ⟨by norm_num, ⟨10066330, -25, by norm_num [binary64], by decide, by norm_num⟩,
    lt_of_lt_of_le (by norm_num : _ < (1 : ℚ)) (one_le_zpow₀ (by norm_num) (by decide))⟩
/-- A number with seven decimals that is lost: half a millionth, about. -/
example : fToStr (List.replicate 9 none) 9 (.fin false (1 / 2 ^ 21)) = .ok ([48, 46, 48, 48, 48, 48, 48, 48, 0].map some) ∧
    fToStr (List.replicate 9 none) 9 (.fin false (1 / 2 ^ 20)) = .ok ([48, 46, 48, 48, 48, 48, 48, 49, 0].map some) := by decide +kernel

end Vita
