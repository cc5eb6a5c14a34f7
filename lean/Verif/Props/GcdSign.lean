import Verif.Props.Math
import Mathlib.Tactic.Ring
/-!
# When the greatest common divisor is undefined, and its sign
-/

namespace Vita
open Out

theorem gcdStep_val {a b r : Int} (h : Math.imod a b = .ok r) : b ≠ 0 ∧ r = a.tmod b := by
  unfold Math.imod at h
  split at h
  · cases h
  · rename_i hc
    cases h
    exact ⟨fun e => hc (Or.inl e), rfl⟩

theorem gcdLoop_sign : ∀ (k : Nat) (high low r : Int), Math.gcdLoop k high low = .ok r →
    (0 < high → 0 < low → 0 < r) ∧ (high < 0 → low < 0 → r < 0)
  | 0, _, _, _, h => by cases h
  | k + 1, high, low, r, h => by
    rw [Math.gcdLoop] at h
    obtain ⟨m, hm, h⟩ := bind_eq_ok.1 h
    obtain ⟨h0, rfl⟩ := gcdStep_val hm
    split at h
    · rename_i hr
      obtain ⟨h1, h2⟩ := gcdLoop_sign k _ _ _ h
      refine ⟨fun hp hq => h1 hq ?_, fun hp hq => h2 hq ?_⟩
      · have := Int.tmod_nonneg low (a := high) (by omega)
        omega
      · have := Int.tmod_nonneg low (a := -high) (by omega)
        rw [Int.neg_tmod] at this
        omega
    · cases h
      exact ⟨fun _ h => h, fun _ h => h⟩

/-- **C43** The sign of the result: positive for two positive numbers, negative for two negative ones.  (For numbers of different sign it may be either, see the
examples.) -/
theorem C43_gcd_sign {k : Nat} {a b r : Int} (h : Math.gcd k a b = .ok r) :
    (0 < a → 0 < b → 0 < r) ∧ (a < 0 → b < 0 → r < 0) := by
  unfold Math.gcd at h
  by_cases hab : a ≥ b
  · simp only [hab, if_true] at h
    obtain ⟨h1, h2⟩ := gcdLoop_sign _ _ _ _ h
    exact ⟨h1, h2⟩
  · simp only [hab, if_false] at h
    obtain ⟨h1, h2⟩ := gcdLoop_sign _ _ _ _ h
    exact ⟨fun x y => h1 y x, fun x y => h2 y x⟩

example : Math.gcd 9 (-6) (-4) = .ok (-2) := by decide +kernel
example : Math.gcd 9 (-6) 4 = .ok (-2) := by decide +kernel
example : Math.gcd 9 (-4) 6 = .ok 2 := by decide +kernel

/-- **C43** Exactly when the greatest common divisor is undefined: the smaller argument is 0, or the arguments are -2^63 and -1. -/
theorem C43_gcd_undefined_exactly {a b : Int} (ha : Math.InI64 a) (hb : Math.InI64 b) {k : Nat} (hk : (min a b).natAbs < k) :
    Math.gcd k a b = .ub ↔ min a b = 0 ∨ min a b = -2 ^ 63 ∧ max a b = -1 := by
  constructor
  · intro h
    by_contra hc
    rw [not_or] at hc
    obtain ⟨r, e, -⟩ := C43_gcd_defined ha hb hc.1 hc.2 hk
    rw [e] at h
    cases h
  · obtain ⟨k, rfl⟩ : ∃ j, k = j + 1 := ⟨k - 1, by omega⟩
    rintro (h | ⟨h1, h2⟩)
    · rcases le_total a b with hab | hab
      · rw [min_eq_left hab] at h
        subst h
        exact (C43_gcd_zero_undefined hab k).2
      · rw [min_eq_right hab] at h
        subst h
        exact (C43_gcd_zero_undefined hab k).1
    · have key : ∀ j, Math.gcdLoop (j + 2) (-1) (-2 ^ 63) = .ub := by
        intro j
        have e1 : Math.imod (-1) (-2 ^ 63) = .ok (-1) := by decide +kernel
        have e2 : Math.imod (-2 ^ 63) (-1) = .ub := by decide +kernel
        rw [Math.gcdLoop, e1, bind_ok, if_pos (by decide), Math.gcdLoop, e2, bind_ub]
      obtain ⟨j, rfl⟩ : ∃ j, k = j + 1 := ⟨k - 1, by rw [h1] at hk; omega⟩
      unfold Math.gcd
      rcases le_total a b with hab | hab
      · rw [min_eq_left hab] at h1
        rw [max_eq_right hab] at h2
        subst h1 h2
        exact key j
      · rw [min_eq_right hab] at h1
        rw [max_eq_left hab] at h2
        subst h1 h2
        exact key j

example : Math.InI64 6 ∧ Math.InI64 (-4) ∧ (min 6 (-4) : Int).natAbs < 9 ∧ Math.gcd 9 6 (-4) ≠ .ub := by decide +kernel

/-- **C42** for arguments of any sign: if the greatest common divisor `g` is defined, the result `l` of `lcm` is the least common multiple up to the sign, which is such that
`g * l = a * b`; if it does not fit, the multiplication (or the division before it) overflows. -/
theorem C42_lcm_any_sign {k : Nat} {a b g : Int} (ha : Math.InI64 a) (hb : Math.InI64 b) (hk : (min a b).natAbs < k) (hg : Math.gcd k a b = .ok g) :
    ∃ l : Int, g * l = a * b ∧ l.natAbs = Int.lcm a b ∧ Math.lcm k a b = if Math.InI64 l then .ok l else .ub := by
  have hd : ¬ (min a b = 0 ∨ min a b = -2 ^ 63 ∧ max a b = -1) := by
    rw [← C43_gcd_undefined_exactly ha hb hk, hg]
    intro h
    cases h
  rw [not_or] at hd
  obtain ⟨g', e, hn⟩ := C43_gcd_defined ha hb hd.1 hd.2 hk
  rw [hg] at e
  cases e
  have h0 : a ≠ 0 ∨ b ≠ 0 := by
    by_contra hc
    rw [not_or, not_not, not_not] at hc
    exact hd.1 (by rw [hc.1, hc.2]; rfl)
  have hg0 : g ≠ 0 := by
    intro hz
    rw [hz, Int.natAbs_zero] at hn
    have := Int.gcd_eq_zero_iff.1 hn.symm
    omega
  have hga : g ∣ a := Int.natAbs_dvd.1 (by rw [hn]; exact Int.gcd_dvd_left ..)
  obtain ⟨q, hq⟩ := hga
  have hq' : a.tdiv g = q := by rw [hq]; exact Int.mul_tdiv_cancel_left q hg0
  refine ⟨q * b, by rw [hq]; ring, ?_, ?_⟩
  · have h1 := Int.gcd_mul_lcm a b
    rw [← hn] at h1
    have h2 : g.natAbs * (q * b).natAbs = g.natAbs * Int.lcm a b := by
      rw [h1, hq, Int.natAbs_mul q b, Int.natAbs_mul g q, mul_assoc]
    exact Nat.eq_of_mul_eq_mul_left (by omega) h2
  · rw [Math.lcm, hg, bind_ok]
    unfold Math.idiv
    by_cases hi : Math.InI64 (a.tdiv g)
    · rw [if_neg (by simp [hg0, hi]), bind_ok, hq']
      rfl
    · rw [if_pos (Or.inr hi), bind_ub]
      rw [hq'] at hi
      rw [if_neg]
      intro hl
      have hab : a = -2 ^ 63 ∧ g = -1 := by
        by_contra hc
        have := imod_ok hg0 ha hc
        unfold Math.imod at this
        rw [hq', if_pos (Or.inr hi)] at this
        cases this
      obtain ⟨rfl, rfl⟩ := hab
      have hq2 : q = 2 ^ 63 := by omega
      rw [hq2] at hl
      unfold Math.InI64 at hl hb
      have hb1 : b = 0 ∨ b = -1 := by omega
      rcases hb1 with rfl | rfl
      · simp at hn
      · exact hd.2 ⟨by decide, by decide⟩

example : Math.InI64 (-6) ∧ Math.InI64 4 ∧ (min (-6) 4 : Int).natAbs < 9 ∧ Math.gcd 9 (-6) 4 = .ok (-2) ∧ Math.lcm 9 (-6) 4 = .ok 12 := by decide +kernel
example : Math.lcm 9 (-4) 6 = .ok (-12) := by decide +kernel

end Vita
