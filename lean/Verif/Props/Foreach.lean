import Verif.Model.Foreach
/-!
# The loops over numbers (C111)
-/

namespace Vita
open Out Foreach

/-- The statement for each of the values, in this order, until one of them does not return. -/
def Spec.forEach (body : Nat → σ → Out σ) : List Nat → σ → Out σ
  | [], s => .ok s
  | i :: l, s => body i s >>= Spec.forEach body l

/-- **C111** `VT_FOREACH(i, from, to)` executes its statement for from, from + 1, …, to - 1 in this order, and ends, whatever the statement does. -/
theorem C111_foreach (body : Nat → σ → Out σ) {to : Nat} (ht : to < 2 ^ 64) : ∀ (k from_ : Nat) (s : σ), to - from_ < k →
    foreach body to k from_ s = Spec.forEach body (List.range' from_ (to - from_)) s := by
  intro k
  induction k with
  | zero => intro f s h; omega
  | succ k ih =>
    intro f s h
    unfold foreach
    by_cases hf : f < to
    · rw [if_pos hf, show to - f = (to - (f + 1)) + 1 by omega, List.range'_succ, Spec.forEach]
      congr 1
      funext s'
      rw [wadd_eq (by omega)]
      exact ih (f + 1) s' (by omega)
    · rw [if_neg hf, show to - f = 0 by omega, List.range'_zero, Spec.forEach]

/-- **C111** (actual behaviour) `VT_FOREACH_R(i, from, to)` executes its statement for to, to - 1, …, from + 1. -/
theorem C111_reverse_actual (body : Nat → σ → Out σ) {from_ : Nat} : ∀ (k to : Nat) (s : σ), to < 2 ^ 64 → to - from_ < k →
    foreachR body from_ k to s = Spec.forEach body (List.range' (from_ + 1) (to - from_)).reverse s := by
  intro k
  induction k with
  | zero => intro t s _ h; omega
  | succ k ih =>
    intro t s ht h
    unfold foreachR
    by_cases hf : t > from_
    · rw [if_pos hf, show t - from_ = (t - 1 - from_) + 1 by omega, List.range'_concat, List.reverse_append, List.reverse_singleton, List.singleton_append,
        Spec.forEach, show from_ + 1 + 1 * (t - 1 - from_) = t by omega]
      congr 1
      funext s'
      rw [wsub_eq (by omega) ht]
      exact ih (t - 1) s' (by omega) (by omega)
    · rw [if_neg hf, show t - from_ = 0 by omega, List.range'_zero]
      rfl

/-- A statement that notes the values. -/
def noteIdx (i : Nat) (l : List Nat) : Out (List Nat) := .ok (l ++ [i])

theorem forEach_note : ∀ (l acc : List Nat), Spec.forEach noteIdx l acc = .ok (acc ++ l)
  | [], acc => by simp [Spec.forEach]
  | i :: l, acc => by
    rw [Spec.forEach, noteIdx, bind_ok, forEach_note l, List.append_assoc]
    rfl

/-- **C111 is false for `VT_FOREACH_R`**: whatever the bounds, the values are not those of `VT_FOREACH` in reverse order.  The upper bound, which is behind the last index, is among
them, and the lower bound is not. -/
theorem C111_reverse_shifted {from_ to : Nat} (ht : to < 2 ^ 64) (h : from_ < to) {k : Nat} (hk : to - from_ < k) :
    ∃ vs ws, foreachR noteIdx from_ k to [] = .ok vs ∧ foreach noteIdx to k from_ [] = .ok ws ∧ vs.length = ws.length ∧ vs ≠ ws.reverse ∧ to ∈ vs ∧ from_ ∉ vs ∧ to ∉ ws ∧ from_ ∈ ws := by
  refine ⟨_, _, (C111_reverse_actual noteIdx k to [] ht hk).trans (forEach_note _ _), (C111_foreach noteIdx ht k from_ [] hk).trans (forEach_note _ _), by simp, ?_, ?_, ?_, ?_, ?_⟩
  · intro he
    have : to ∈ ([] ++ (List.range' (from_ + 1) (to - from_)).reverse : List Nat) := by simp [List.mem_range'_1]; omega
    rw [he] at this
    simp [List.mem_range'_1] at this
    omega
  · simp [List.mem_range'_1]; omega
  · simp [List.mem_range'_1]; omega
  · simp [List.mem_range'_1]; omega
  · simp [List.mem_range'_1]; omega

/-- **C111** `VT_FOREACH_STEP(i, from, to, step)` executes its statement for from, from + step, … below `to`, if the step is not 0 and the sum of the upper bound and the step does
not exceed 2^64. -/
theorem C111_step_partial (body : Nat → σ → Out σ) {to step : Nat} (h0 : 0 < step) (hw : to + step ≤ 2 ^ 64) : ∀ (k from_ : Nat) (s : σ), to - from_ < k →
    foreachStep body to step k from_ s = Spec.forEach body ((List.range ((to - from_ + step - 1) / step)).map fun j => from_ + j * step) s := by
  intro k
  induction k with
  | zero => intro f s h; omega
  | succ k ih =>
    intro f s h
    unfold foreachStep
    by_cases hf : f < to
    · rw [if_pos hf]
      have hn : (to - f + step - 1) / step = (to - (f + step) + step - 1) / step + 1 := by
        rw [← Nat.add_div_right _ h0]
        rcases Nat.lt_or_ge (f + step) to with g | g
        · congr 1; omega
        · rw [show to - (f + step) = 0 by omega, Nat.zero_add]
          have e1 : (to - f + step - 1) / step = 1 := by
            refine (Nat.div_eq_iff h0).2 ⟨by omega, by omega⟩
          have e2 : (step - 1 + step) / step = 1 := (Nat.div_eq_iff h0).2 ⟨by omega, by omega⟩
          rw [e1, e2]
      rw [hn, List.range_succ_eq_map, List.map_cons, Spec.forEach, Nat.zero_mul, Nat.add_zero]
      congr 1
      funext s'
      rw [wadd_eq (by omega), ih (f + step) s' (by omega), List.map_map]
      congr 1
      refine List.map_congr_left fun j _ => ?_
      simp only [Function.comp, Nat.succ_eq_add_one, Nat.add_mul, Nat.one_mul]
      omega
    · rw [if_neg hf, show to - f = 0 by omega, Nat.zero_add, Nat.div_eq_of_lt (by omega)]
      rfl

/-- **C111 is false for `VT_FOREACH_STEP`**: the step 0 never comes to an end. -/
theorem C111_step_zero_never_ends {from_ to : Nat} (h : from_ < to) (ht : to < 2 ^ 64) : ∀ (k : Nat) (l : List Nat), foreachStep noteIdx to 0 k from_ l = .fuel := by
  intro k
  induction k with
  | zero => intro l; rfl
  | succ k ih =>
    intro l
    unfold foreachStep
    rw [if_pos h, noteIdx, bind_ok, wadd_eq (by omega), Nat.add_zero]
    exact ih _

/-- **C111 is false for `VT_FOREACH_STEP`**: for every power of two as step, and every upper bound less than a step below 2^64, the variable wraps around before it reaches the bound, and the
loop never comes to an end. -/
theorem C111_step_wraps {step to : Nat} (hs : step ∣ 2 ^ 64) (h1 : 1 < step) (hw : 2 ^ 64 < to + step) (ht : to < 2 ^ 64) :
    ∀ (k from_ : Nat) (l : List Nat), step ∣ from_ → from_ < 2 ^ 64 → foreachStep noteIdx to step k from_ l = .fuel := by
  intro k
  induction k with
  | zero => intro f l _ _; rfl
  | succ k ih =>
    intro f l hd hf
    have hlt : f < to := by
      have : step ∣ 2 ^ 64 - f := Nat.dvd_sub hs hd
      have := Nat.le_of_dvd (by omega) this
      omega
    unfold foreachStep
    rw [if_pos hlt, noteIdx, bind_ok]
    refine ih _ _ ?_ (Nat.mod_lt _ (by omega))
    unfold wadd
    exact (Nat.dvd_mod_iff hs).2 (Nat.dvd_add hd (Nat.dvd_refl _))

/-- Examples: the loops over 2 … 7, and a step which meets the hypotheses of the last theorem. -/
example : foreach noteIdx 7 10 2 [] = .ok [2, 3, 4, 5, 6] ∧ foreachR noteIdx 2 10 7 [] = .ok [7, 6, 5, 4, 3] ∧ foreachStep noteIdx 7 2 10 2 [] = .ok [2, 4, 6] ∧
    4 ∣ 2 ^ 64 ∧ 2 ^ 64 < (2 ^ 64 - 1) + 4 := by decide +kernel

end Vita
