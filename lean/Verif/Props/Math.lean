import Verif.Model.Math
import Mathlib.Data.Nat.Digits.Lemmas
import Mathlib.Data.Int.GCD
import Mathlib.Tactic.IntervalCases
import Mathlib.Tactic.Ring
import Mathlib.Tactic.Linarith
/-!
# Properties C42-C45: integer mathematics
-/

namespace Vita
open Out

seal wadd wsub wmul

/-! ### C44 -/

theorem revLoop_ok : ∀ (k t r : Nat), t < 10 ^ k → ∃ x, Math.revLoop (k + 1) t r = .ok x ∧
    x % 2 ^ 64 = (Nat.ofDigits 10 (Nat.digits 10 t).reverse + r * 10 ^ (Nat.digits 10 t).length) % 2 ^ 64 ∧
    (r < 2 ^ 64 → x < 2 ^ 64)
  | 0, t, r, h => by
    have : t = 0 := by simpa using h
    subst this
    exact ⟨r, by simp [Math.revLoop], by simp, id⟩
  | k + 1, t, r, h => by
    rcases Nat.eq_zero_or_pos t with rfl | h0
    · exact ⟨r, by simp [Math.revLoop], by simp, id⟩
    · have hd : t / 10 < 10 ^ k := by
        rw [Nat.div_lt_iff_lt_mul (by omega)]
        rw [pow_succ] at h
        omega
      obtain ⟨x, e, hx, hlt⟩ := revLoop_ok k (t / 10) (wadd (wmul r 10) (t % 10)) hd
      refine ⟨x, by rw [Math.revLoop, if_pos h0, e], ?_, fun _ => hlt (by simp only [wadd]; omega)⟩
      rw [hx, Nat.digits_def' (by omega) h0]
      have hw : wadd (wmul r 10) (t % 10) % 2 ^ 64 = (r * 10 + t % 10) % 2 ^ 64 := by
        simp only [wadd, wmul]; omega
      rw [List.reverse_cons, Nat.ofDigits_append, List.length_reverse, Nat.ofDigits_singleton, List.length_cons]
      rw [Nat.add_mod, Nat.mul_mod, hw, ← Nat.mul_mod, ← Nat.add_mod]
      congr 1
      ring

theorem no_wrap {X n : Nat} (hX : X < 10 ^ 20) (h9 : X % 9 = n % 9) (h : X % 2 ^ 64 = n) : X = n := by
  obtain ⟨q, hq⟩ : ∃ q, q = X / 2 ^ 64 := ⟨_, rfl⟩
  have hXq : X = 2 ^ 64 * q + n := by rw [hq, ← h, Nat.div_add_mod]
  have hq6 : q < 6 := by clear h9 h hq; omega
  clear hq h hX
  interval_cases q <;> omega

/-- **C44** For every 64-bit number the loop ends after at most 20 rounds, and the test is true exactly if the decimal
digits read the same backwards, although the reversed number may not fit into 64 bits. -/
theorem C44_palindrome {n : Nat} (hn : n < 2 ^ 64) {k : Nat} (hk : 20 < k) :
    ∃ r, Math.isPalindrome k n = .ok r ∧ (r = true ↔ (Nat.digits 10 n).reverse = Nat.digits 10 n) := by
  obtain ⟨k, rfl⟩ : ∃ j, k = j + 1 := ⟨k - 1, by omega⟩
  have h20 : n < 10 ^ 20 := by omega
  obtain ⟨x, e, hx, hlt⟩ := revLoop_ok k n 0 (lt_of_lt_of_le h20 (Nat.pow_le_pow_right (by omega) (by omega)))
  refine ⟨x == n, by simp only [Math.isPalindrome, e, bind_ok], ?_⟩
  have hlen : (Nat.digits 10 n).length ≤ 20 := by
    rcases Nat.eq_zero_or_pos n with rfl | h0
    · simp
    · exact (Nat.digits_length_le_iff (by omega) n).2 h20
  have hX : Nat.ofDigits 10 (Nat.digits 10 n).reverse < 10 ^ 20 := by
    refine lt_of_lt_of_le (Nat.ofDigits_lt_base_pow_length (by omega) ?_) (Nat.pow_le_pow_right (by omega : 0 < 10) (by simpa using hlen))
    intro d hd
    exact Nat.digits_lt_base (by omega) (List.mem_reverse.1 hd)
  have h9 : Nat.ofDigits 10 (Nat.digits 10 n).reverse % 9 = n % 9 := by
    have h1 := Nat.ofDigits_modEq' 10 1 9 (by decide) (Nat.digits 10 n).reverse
    have h2 := Nat.ofDigits_modEq' 10 1 9 (by decide) (Nat.digits 10 n)
    rw [Nat.ofDigits_one] at h1 h2
    rw [List.sum_reverse] at h1
    rw [Nat.ofDigits_digits] at h2
    exact h1.trans h2.symm
  have hlt := hlt (Nat.two_pow_pos 64)
  simp only [Nat.zero_mul, Nat.add_zero] at hx
  rw [beq_iff_eq]
  have hlow : ∀ d ∈ Nat.digits 10 n, d < 10 := fun d hd => Nat.digits_lt_base (by omega) hd
  have hval0 := Nat.ofDigits_digits 10 n
  generalize hL : Nat.digits 10 n = L at *
  generalize hY : Nat.ofDigits 10 L.reverse = Y at *
  clear hL hlen h20 hk e
  constructor
  · intro hxn
    have hval : Y = n := no_wrap hX h9 (by rw [← hx, Nat.mod_eq_of_lt hlt, hxn])
    refine Nat.ofDigits_inj_of_len_eq (b := 10) (by decide) (by simp) ?_ hlow ?_
    · intro d hd
      exact hlow d (List.mem_reverse.1 hd)
    · rw [hY, hval, hval0]
  · intro hrev
    rw [hrev, hval0] at hY
    rwa [← hY, Nat.mod_eq_of_lt hlt, Nat.mod_eq_of_lt hn] at hx

/-- A number whose reversal overflows, a palindrome and the largest number. -/
example : Math.isPalindrome 21 10000000000000000009 = .ok false := by decide +kernel
example : Math.isPalindrome 21 12345678900987654321 = .ok true := by decide +kernel
example : Math.isPalindrome 21 (2 ^ 64 - 1) = .ok false := by decide +kernel

/-! ### C42, C43 -/

theorem tdiv_natAbs_le (a b : Int) : (a.tdiv b).natAbs ≤ a.natAbs := by
  rw [Int.natAbs_tdiv]; exact Nat.div_le_self _ _

theorem imod_ok {a b : Int} (hb : b ≠ 0) (ha : Math.InI64 a) (h : ¬ (a = -2 ^ 63 ∧ b = -1)) :
    Math.imod a b = .ok (a.tmod b) := by
  unfold Math.imod
  rw [if_neg]
  simp only [not_or, Decidable.not_not]
  refine ⟨hb, ?_⟩
  have h1 := tdiv_natAbs_le a b
  unfold Math.InI64 at *
  by_cases hm : a = -2 ^ 63
  · subst hm
    have hb1 : b ≠ -1 := fun e => h ⟨rfl, e⟩
    have : (Int.tdiv (-2 ^ 63) b).natAbs ≤ 2 ^ 63 := by simpa using h1
    refine ⟨by omega, ?_⟩
    by_cases hp : 0 < b
    · have h2 : Int.tdiv (-2 ^ 63) b ≤ 0 := by
        rw [Int.neg_tdiv]
        have := Int.tdiv_nonneg (a := 2 ^ 63) (b := b) (by omega) (by omega)
        omega
      omega
    · have h2 : 2 ≤ b.natAbs := by omega
      have h3 : (Int.tdiv (-2 ^ 63) b).natAbs = 2 ^ 63 / b.natAbs := by rw [Int.natAbs_tdiv]; rfl
      have h4 : 2 ^ 63 / b.natAbs ≤ 2 ^ 63 / 2 := Nat.div_le_div_left h2 (by omega)
      omega
  · omega

/-- The loop of `gcd` ends within `|low| + 1` rounds. -/
theorem gcdLoop_ok : ∀ (k : Nat) (high low : Int), low ≠ 0 → Math.InI64 high → Math.InI64 low →
    ¬ (high = -2 ^ 63 ∧ low = -1) → ¬ (low = -2 ^ 63 ∧ high.tmod low = -1) → low.natAbs < k →
    ∃ r, Math.gcdLoop k high low = .ok r ∧ r.natAbs = Int.gcd high low ∧
      (0 < high → 0 < low → 0 < r)
  | 0, _, _, _, _, _, _, _, hk => by omega
  | k + 1, high, low, h0, hh, hl, hb, hb2, hk => by
    rw [Math.gcdLoop, imod_ok h0 hh hb, bind_ok]
    have hlt : (high.tmod low).natAbs < low.natAbs := by
      rw [Int.natAbs_tmod]; exact Nat.mod_lt _ (by omega)
    have hg : Int.gcd low (high.tmod low) = Int.gcd high low := by
      rw [Int.gcd_comm high low, Int.gcd_def, Int.gcd_def, Int.natAbs_tmod, Nat.gcd_comm, ← Nat.gcd_rec]
    by_cases hr : high.tmod low = 0
    · rw [if_neg (by simpa using hr)]
      refine ⟨low, rfl, ?_, fun _ h => h⟩
      rw [← hg, hr]
      simp
    · rw [if_pos hr]
      have hr' : Math.InI64 (high.tmod low) := by
        unfold Math.InI64 at *
        omega
      obtain ⟨r, e, h1, h2⟩ := gcdLoop_ok k low (high.tmod low) hr hl hr' hb2
        (by unfold Math.InI64 at *; omega) (by omega)
      refine ⟨r, e, h1.trans hg, fun hp1 hp2 => h2 hp2 ?_⟩
      have := Int.tmod_nonneg low (a := high) (by omega)
      omega

/-- **C43** What `gcd` does for arbitrary `int64_t` arguments: if the smaller argument is not zero and the
arguments are not -2^63 and -1, it returns the greatest common divisor up to the sign. -/
theorem C43_gcd_defined {a b : Int} (ha : Math.InI64 a) (hb : Math.InI64 b) (h0 : min a b ≠ 0)
    (hm : ¬ (min a b = -2 ^ 63 ∧ max a b = -1)) {k : Nat} (hk : (min a b).natAbs < k) :
    ∃ r, Math.gcd k a b = .ok r ∧ r.natAbs = Int.gcd a b := by
  have key : ∀ low high : Int, low ≤ high → Math.InI64 low → Math.InI64 high → low ≠ 0 →
      ¬ (low = -2 ^ 63 ∧ high = -1) → low.natAbs < k →
      ∃ r, Math.gcdLoop k high low = .ok r ∧ r.natAbs = Int.gcd high low := by
    intro low high hle hl hh h0 hm hk
    have hc : ¬ (low = -2 ^ 63 ∧ high.tmod low = -1) := by
      rintro ⟨hc1, hc2⟩
      refine hm ⟨hc1, ?_⟩
      subst hc1
      by_cases hx : high = -2 ^ 63
      · subst hx; simp at hc2
      · have : high.tmod (-2 ^ 63) = high := by
          apply Int.eq_of_sub_eq_zero
          rcases lt_or_ge high 0 with hn | hp
          · have h3 : (-high).tmod (-2 ^ 63) = -high := by
              rw [Int.tmod_neg]
              exact Int.tmod_eq_of_lt (by omega) (by unfold Math.InI64 at hh; omega)
            rw [Int.neg_tmod] at h3
            omega
          · rw [Int.tmod_neg, Int.tmod_eq_of_lt hp (by unfold Math.InI64 at hh; omega)]
            omega
        omega
    obtain ⟨r, e, h1, -⟩ := gcdLoop_ok k high low h0 hh hl (by unfold Math.InI64 at *; omega) hc hk
    exact ⟨r, e, h1⟩
  unfold Math.gcd
  by_cases hab : a ≥ b
  · simp only [hab, if_true]
    rw [min_eq_right hab] at h0 hm hk
    rw [max_eq_left hab] at hm
    exact key b a hab hb ha h0 hm hk
  · simp only [hab, if_false]
    have hab' : a ≤ b := by omega
    rw [min_eq_left hab'] at h0 hm hk
    rw [max_eq_right hab'] at hm
    rw [Int.gcd_comm]
    exact key a b hab' ha hb h0 hm hk

/-- **C43** (partial: `C43_gcd_defined` and this describe the cases in which `gcd` returns; the property is false as
`C43_gcd_zero_undefined` and `C43_gcd_min_undefined` show, and `C43_gcd_negative` for the sign.)  With a zero and a negative number the
result is the negative number. -/
theorem C43_gcd_zero_negative_partial {a : Int} (ha : Math.InI64 a) (hn : a < 0) {k : Nat} (hk : a.natAbs < k) :
    Math.gcd k a 0 = .ok a ∧ Math.gcd k 0 a = .ok a := by
  obtain ⟨k, rfl⟩ : ∃ j, k = j + 1 := ⟨k - 1, by omega⟩
  have h1 : ¬ a ≥ 0 := by omega
  have h2 : (0 : Int) ≥ a := by omega
  have e : Math.imod 0 a = .ok 0 := by rw [imod_ok (by omega) (by decide) (by omega)]; simp
  constructor
  · simp [Math.gcd, h1, Math.gcdLoop, e]
  · simp [Math.gcd, h2, Math.gcdLoop, e]

/-- **C43** (counterexample) `gcd(a, 0)` and `gcd(0, a)` divide by zero for every `a ≥ 0`. -/
theorem C43_gcd_zero_undefined {a : Int} (ha : 0 ≤ a) (k : Nat) :
    Math.gcd (k + 1) a 0 = .ub ∧ Math.gcd (k + 1) 0 a = .ub := by
  have e : ∀ x, Math.imod x 0 = .ub := fun x => by simp [Math.imod]
  constructor
  · simp [Math.gcd, ha, Math.gcdLoop, e]
  · by_cases h : a ≤ 0
    · have : a = 0 := by omega
      subst this
      simp [Math.gcd, Math.gcdLoop, e]
    · simp [Math.gcd, h, Math.gcdLoop, e]

/-- **C43** (counterexample) `gcd(-2^63, -1)` overflows. -/
theorem C43_gcd_min_undefined : Math.gcd 9 (-2 ^ 63) (-1) = .ub := by decide +kernel

/-- **C43** (counterexample) The result may be negative. -/
theorem C43_gcd_negative : Math.gcd 9 (-6) (-4) = .ok (-2) := by decide +kernel

/-- **C42** For positive arguments the loop ends and `gcd` is the greatest common divisor. -/
theorem C42_gcd {a b : Int} (ha : Math.InI64 a) (hb : Math.InI64 b) (ha0 : 0 < a) (hb0 : 0 < b) {k : Nat}
    (hk : (min a b).natAbs < k) :
    ∃ g, Math.gcd k a b = .ok g ∧ 0 < g ∧ g ∣ a ∧ g ∣ b ∧ ∀ d, d ∣ a → d ∣ b → d ≤ g := by
  have main : ∀ low high : Int, 0 < low → 0 < high → Math.InI64 low → Math.InI64 high → low.natAbs < k →
      ∃ g, Math.gcdLoop k high low = .ok g ∧ 0 < g ∧ g.natAbs = Int.gcd high low := by
    intro low high h1 h2 h3 h4 h5
    obtain ⟨r, e, hr, hp⟩ := gcdLoop_ok k high low (by omega) h4 h3 (by omega) (by omega) h5
    exact ⟨r, e, hp h2 h1, hr⟩
  have fin : ∀ g : Int, 0 < g → g.natAbs = Int.gcd a b → g ∣ a ∧ g ∣ b ∧ ∀ d, d ∣ a → d ∣ b → d ≤ g := by
    intro g hg he
    have : g = (Int.gcd a b : Int) := by omega
    rw [this]
    refine ⟨Int.gcd_dvd_left .., Int.gcd_dvd_right .., fun d h1 h2 => ?_⟩
    exact Int.le_of_dvd (by omega) (Int.dvd_coe_gcd h1 h2)
  unfold Math.gcd
  by_cases hab : a ≥ b
  · simp only [hab, if_true]
    rw [min_eq_right hab] at hk
    obtain ⟨g, e, hp, he⟩ := main b a hb0 ha0 hb ha hk
    exact ⟨g, e, hp, fin g hp he⟩
  · simp only [hab, if_false]
    rw [min_eq_left (by omega)] at hk
    obtain ⟨g, e, hp, he⟩ := main a b ha0 hb0 ha hb hk
    exact ⟨g, e, hp, fin g hp (by rw [he, Int.gcd_comm])⟩

/-- **C42** For positive arguments `lcm` is the least common multiple if that fits, otherwise the multiplication
overflows. -/
theorem C42_lcm {a b : Int} (ha : Math.InI64 a) (hb : Math.InI64 b) (ha0 : 0 < a) (hb0 : 0 < b) {k : Nat}
    (hk : (min a b).natAbs < k) :
    ∃ l : Int, 0 < l ∧ a ∣ l ∧ b ∣ l ∧ (∀ m, 0 < m → a ∣ m → b ∣ m → l ≤ m) ∧
      Math.lcm k a b = if l < 2 ^ 63 then .ok l else .ub := by
  obtain ⟨g, e, hg, h1, h2, h3⟩ := C42_gcd ha hb ha0 hb0 hk
  have hge : g = (Int.gcd a b : Int) := by
    apply le_antisymm
    · exact Int.le_of_dvd (by exact_mod_cast Int.gcd_pos_of_ne_zero_left b (by omega)) (Int.dvd_coe_gcd h1 h2)
    · exact h3 _ (Int.gcd_dvd_left ..) (Int.gcd_dvd_right ..)
  obtain ⟨q, hq⟩ := h1
  have hq0 : 0 < q := by
    by_contra hc
    have : g * q ≤ 0 := Int.mul_nonpos_of_nonneg_of_nonpos (by omega) (by omega)
    omega
  have hql : q ≤ a := by
    rw [hq]
    nlinarith
  have hd : a.tdiv g = q := by rw [hq, Int.mul_tdiv_cancel_left q (by omega)]
  have e2 : Math.idiv a g = .ok q := by
    unfold Math.idiv
    rw [hd, if_neg]
    simp only [not_or, Decidable.not_not]
    unfold Math.InI64 at *
    omega
  have hl0 : 0 < q * b := Int.mul_pos hq0 hb0
  refine ⟨q * b, hl0, ?_, Dvd.intro_left q rfl, ?_, ?_⟩
  · obtain ⟨s, hs⟩ := h2
    rw [hq, hs]
    exact ⟨s, by ring⟩
  · intro m hm hma hmb
    have hcop : (Int.lcm a b : Int) ∣ m := Int.coe_lcm_dvd hma hmb
    have hlc : (Int.lcm a b : Int) = q * b := by
      have h4 : (Int.gcd a b : Int) * (Int.lcm a b : Int) = ((a * b).natAbs : Int) := by
        rw [Int.natAbs_mul]; exact_mod_cast Int.gcd_mul_lcm a b
      have h5 : ((a * b).natAbs : Int) = a * b := Int.natAbs_of_nonneg (by positivity)
      rw [← hge, h5] at h4
      have : g * (Int.lcm a b : Int) = g * (q * b) := by rw [h4]; nth_rewrite 1 [hq]; ring
      exact Int.eq_of_mul_eq_mul_left (by omega) this
    rw [← hlc]
    exact Int.le_of_dvd hm hcop
  · simp only [Math.lcm, e, bind_ok, e2, Math.imul]
    by_cases hf : q * b < 2 ^ 63
    · have hi : Math.InI64 (q * b) := ⟨by omega, hf⟩
      rw [if_pos hi, if_pos hf]
    · have hi : ¬ Math.InI64 (q * b) := fun h => hf h.2
      rw [if_neg hi, if_neg hf]

example : Math.gcd 99 12 18 = .ok 6 ∧ Math.lcm 99 12 18 = .ok 36 := by decide +kernel

/-! ### C45 -/

/-- The results of the first `n` calls with the clock readings `now`. -/
def draws (now : Nat → Int) : Nat → Math.Rng × List Nat
  | 0 => (none, [])
  | n + 1 =>
    let r := Math.randomU64 (draws now n).1 (now n)
    (r.1, (draws now n).2 ++ [r.2])

theorem randomU64_lt (st : Math.Rng) (now : Int) : (Math.randomU64 st now).2 < 2 ^ 15 := by
  simp only [Math.randomU64]
  rw [Nat.shiftRight_eq_div_pow, Nat.div_lt_iff_lt_mul (by decide)]
  have : ∀ x, x &&& 0x3FFF8000 ≤ 0x3FFF8000 := fun x => Nat.and_le_right
  exact lt_of_le_of_lt (this _) (by decide)

/-- **C45** Whatever the clock shows and however often the generator is called, every result is in the documented range
[0, 2^64 - 2]. -/
theorem C45_random_in_documented_range (now : Nat → Int) (n : Nat) : ∀ x ∈ (draws now n).2, x < 2 ^ 64 - 1 := by
  induction n with
  | zero => simp [draws]
  | succ n ih =>
    intro x hx
    simp only [draws, List.mem_append, List.mem_singleton] at hx
    rcases hx with hx | rfl
    · exact ih x hx
    · have := randomU64_lt (draws now n).1 (now n)
      omega

/-- **C45** In fact every result is below 32768; after the first call the clock has no influence. -/
theorem C45_random_below_32768 (now : Nat → Int) (n : Nat) : ∀ x ∈ (draws now n).2, x < 32768 := by
  induction n with
  | zero => simp [draws]
  | succ n ih =>
    intro x hx
    simp only [draws, List.mem_append, List.mem_singleton] at hx
    rcases hx with hx | rfl
    · exact ih x hx
    · exact randomU64_lt _ _

theorem C45_random_deterministic (now now' : Nat → Int) (h : now 0 = now' 0) (n : Nat) :
    (draws now n).2 = (draws now' n).2 := by
  have key : ∀ n, draws now (n + 1) = draws now' (n + 1) := by
    intro n
    induction n with
    | zero => simp [draws, h]
    | succ n ih =>
      have hs : ∀ m : Nat → Int, (draws m (n + 1)).1.isSome := fun m => rfl
      obtain ⟨s, hs⟩ := Option.isSome_iff_exists.1 (hs now)
      have e1 : ∀ m, draws m (n + 1 + 1) = ((Math.randomU64 (draws m (n + 1)).1 (m (n + 1))).1,
          (draws m (n + 1)).2 ++ [(Math.randomU64 (draws m (n + 1)).1 (m (n + 1))).2]) := fun m => rfl
      rw [e1, e1, ← ih, hs]
      rfl
  cases n with
  | zero => rfl
  | succ n => rw [key]

example : (draws (fun _ => 1700000000) 3).2 ≠ [] := by decide +kernel

end Vita
