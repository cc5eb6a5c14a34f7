import Verif.Props.Foreach
import Mathlib.Data.Int.GCD
/-!
# C111: which loops with a step come to an end
-/

namespace Vita
open Out Spec Foreach

theorem foreachStep_ends {body : Nat → σ → Out σ} (hb : ∀ i s, ∃ s', body i s = .ok s') {to_ step : Nat} :
    ∀ (j i : Nat) (s : σ), i < 2 ^ 64 → to_ ≤ (i + j * step) % 2 ^ 64 → ∃ s', foreachStep body to_ step (j + 1) i s = .ok s' := by
  intro j
  induction j with
  | zero =>
    intro i s hi h
    rw [Nat.zero_mul, Nat.add_zero, Nat.mod_eq_of_lt hi] at h
    exact ⟨s, by unfold foreachStep; rw [if_neg (by omega)]⟩
  | succ j ih =>
    intro i s hi h
    unfold foreachStep
    split
    · obtain ⟨s', e⟩ := hb i s
      rw [e, bind_ok]
      refine ih _ _ (Nat.mod_lt _ (by omega)) ?_
      unfold wadd
      rwa [Nat.mod_add_mod, show i + step + j * step = i + (j + 1) * step by rw [Nat.add_mul, Nat.one_mul]; omega]
    · exact ⟨s, rfl⟩

theorem foreachStep_last {body : Nat → σ → Out σ} {to_ step g r : Nat} (hg : g ∣ 2 ^ 64) (hs : g ∣ step) (hr : r < g) :
    ∀ (k i : Nat) (s s' : σ), i < 2 ^ 64 → i % g = r → foreachStep body to_ step k i s = .ok s' → to_ ≤ 2 ^ 64 - g + r := by
  intro k
  induction k with
  | zero => intro i s s' _ _ h; cases h
  | succ k ih =>
    intro i s s' hi hm h
    unfold foreachStep at h
    split at h
    · obtain ⟨s1, -, h⟩ := bind_eq_ok.1 h
      refine ih _ _ _ (Nat.mod_lt _ (by omega)) ?_ h
      rw [Nat.mod_mod_of_dvd _ hg, Nat.add_mod, Nat.mod_eq_zero_of_dvd hs, Nat.add_zero, Nat.mod_mod, hm]
    · obtain ⟨q, hq⟩ := hg
      have h1 : g * (i / g) + i % g = i := Nat.div_add_mod i g
      have h2 : i / g < q := Nat.div_lt_of_lt_mul (by omega)
      have h3 : g * (i / g + 1) ≤ g * q := Nat.mul_le_mul_left _ h2
      rw [Nat.mul_add, Nat.mul_one] at h3
      omega

/-- **C111** (`VT_FOREACH_STEP`, exactly) The loop, with a statement that always comes to an end, comes to an end if and only if the upper bound is not above
the largest number below 2^64 that has the same remainder as `from` on division by `g`, the largest power of two in the step (2^64 for the step 0). -/
theorem C111_step_ends_exactly {body : Nat → σ → Out σ} (hb : ∀ i s, ∃ s', body i s = .ok s') {from_ to_ step : Nat} (hf : from_ < 2 ^ 64) (s : σ) :
    (∃ k s', foreachStep body to_ step k from_ s = .ok s') ↔
      to_ ≤ 2 ^ 64 - Nat.gcd step (2 ^ 64) + from_ % Nat.gcd step (2 ^ 64) := by
  have hN : Nat.gcd step (2 ^ 64) ∣ 2 ^ 64 := Nat.gcd_dvd_right _ _
  have hp : 0 < Nat.gcd step (2 ^ 64) := Nat.gcd_pos_of_pos_right _ (by omega)
  constructor
  · rintro ⟨k, s', h⟩
    exact foreachStep_last hN (Nat.gcd_dvd_left _ _) (Nat.mod_lt _ hp) k from_ s s' hf rfl h
  · intro h
    have hle := Nat.le_of_dvd (by omega) hN
    rcases Nat.lt_or_ge (Nat.gcd step (2 ^ 64)) (2 ^ 64) with hlt | hge
    · obtain ⟨m, -, hm⟩ := Nat.exists_mul_mod_eq_gcd hlt
      generalize Nat.gcd step (2 ^ 64) = g at *
      obtain ⟨q, hq⟩ := hN
      have h1 : g * (from_ / g) + from_ % g = from_ := Nat.div_add_mod from_ g
      have h2 : from_ / g < q := Nat.div_lt_of_lt_mul (by omega)
      have h3 : g * q = g * (from_ / g) + (g * (q - 1 - from_ / g) + g) := by
        rw [← Nat.mul_succ, ← Nat.mul_add]; congr 1; omega
      have h4 := Nat.mod_lt from_ hp
      refine ⟨_, foreachStep_ends hb (m * (q - 1 - from_ / g)) from_ s hf ?_⟩
      have e : (from_ + m * (q - 1 - from_ / g) * step) % 2 ^ 64 = 2 ^ 64 - g + from_ % g := by
        rw [show m * (q - 1 - from_ / g) * step = step * m * (q - 1 - from_ / g) by
          rw [Nat.mul_comm _ step, Nat.mul_assoc], Nat.add_mod, Nat.mul_mod, hm, Nat.mul_mod_mod, Nat.add_mod_mod, Nat.mod_add_mod, Nat.mod_eq_of_lt (by omega)]
        omega
      omega
    · have e : Nat.gcd step (2 ^ 64) = 2 ^ 64 := by omega
      rw [e] at h
      rw [Nat.mod_eq_of_lt hf] at h
      refine ⟨1, s, ?_⟩
      unfold foreachStep
      rw [if_neg (by omega)]

/-- Examples: an odd step ends always, and so does the step 12 from 3 on; from 2 on it ends for bounds up to 2^64 - 2. -/
example : (∀ i (l : List Nat), ∃ l', noteIdx i l = .ok l') ∧ Nat.gcd 7 (2 ^ 64) = 1 ∧ Nat.gcd 12 (2 ^ 64) = 4 ∧ 2 ^ 64 - 4 + 3 % 4 = 2 ^ 64 - 1 ∧ 2 ^ 64 - 4 + 2 % 4 = 2 ^ 64 - 2 :=
  ⟨fun _ _ => ⟨_, rfl⟩, by decide +kernel⟩

end Vita
