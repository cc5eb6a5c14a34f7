import Verif.Model.FloatCmp
import Mathlib.Tactic.NormNum
/-!
# C104: minimum, maximum and clamp of floating point numbers

The theorems hold for every type whose objects have values as IEEE 754 has them, so also for `long double`.
-/

namespace Vita
open Spec

namespace Spec.FVal

theorem lt_or_le {a b : FVal} (ha : a ≠ .nan) (hb : b ≠ .nan) : a.Lt b ∨ b.Le a := by
  cases a with
  | nan => exact absurd rfl ha
  | num a =>
    cases b with
    | nan => exact absurd rfl hb
    | num b =>
      rcases lt_trichotomy a b with h | h | h
      · exact .inl h
      · exact .inr (.inr h.symm)
      · exact .inr (.inl h)
    | inf s => cases s <;> simp [Lt, Le]
  | inf s =>
    cases b with
    | nan => exact absurd rfl hb
    | num b => cases s <;> simp [Lt, Le]
    | inf t => cases s <;> cases t <;> simp [Lt, Le, FVal.Eq]

theorem not_lt_of_le {a b : FVal} (h : b.Le a) : ¬ a.Lt b := by
  cases a with
  | nan => exact id
  | num a =>
    cases b with
    | nan => exact id
    | num b =>
      rcases h with h | h
      · exact not_lt.2 (le_of_lt h)
      · have : b = a := h
        exact not_lt.2 this.le
    | inf s => cases s <;> simp_all [Lt, Le, FVal.Eq]
  | inf s => cases b <;> cases s <;> simp_all [Lt, Le, FVal.Eq]

theorem le_refl' {a : FVal} (ha : a ≠ .nan) : a.Le a := by
  cases a with
  | nan => exact absurd rfl ha
  | num a => exact .inr rfl
  | inf s => exact .inr rfl

theorem lt_of_le_lt {a b c : FVal} (h1 : a.Le b) (h2 : b.Lt c) : a.Lt c := by
  cases a with
  | nan => rcases h1 with h | h <;> exact h.elim
  | num a =>
    cases b with
    | nan => exact h2.elim
    | num b =>
      have hab : a ≤ b := by
        rcases h1 with h | h
        · exact le_of_lt h
        · exact le_of_eq h
      cases c with
      | nan => exact h2
      | num c => exact lt_of_le_of_lt hab h2
      | inf s => cases s <;> exact h2
    | inf s => cases s <;> cases c <;> simp_all [Lt, Le, FVal.Eq]
  | inf s =>
    cases b with
    | nan => exact h2.elim
    | num b => cases s <;> cases c <;> simp_all [Lt, Le, FVal.Eq]
               rename_i t
               cases t <;> simp_all
    | inf t => cases s <;> cases t <;> cases c <;> simp_all [Lt, Le, FVal.Eq]

theorem not_nan_of_le {a b : FVal} (h : a.Le b) : a ≠ .nan ∧ b ≠ .nan := by
  constructor
  · rintro rfl
    rcases h with h | h <;> exact h.elim
  · rintro rfl
    cases a with
    | nan => rcases h with h | h <;> exact h.elim
    | num a => rcases h with h | h <;> exact h.elim
    | inf s => cases s <;> rcases h with h | h <;> exact h.elim

theorem eq_of_le_le {a b : FVal} (h1 : a.Le b) (h2 : b.Le a) : a.Eq b := by
  rcases h1 with h | h
  · exact absurd h (not_lt_of_le h2)
  · exact h

theorem nan_lt (b : FVal) : ¬ FVal.Lt .nan b := id

theorem lt_nan (a : FVal) : ¬ a.Lt .nan := by
  cases a with
  | nan => exact id
  | num a => exact id
  | inf s => cases s <;> exact id

end Spec.FVal

section
variable {α : Type} {val : α → FVal}
open FVal

theorem fmin_def (x y : FNum val) : Cmp.min x y = if x.value.Lt y.value then x else y := rfl
theorem fmax_def (x y : FNum val) : Cmp.max x y = if y.value.Lt x.value then x else y := rfl

/-- **C104** Of two numbers, infinities included, the minimum is one and not above either of them. -/
theorem C104_min_partial (x y : FNum val) (hx : x.value ≠ .nan) (hy : y.value ≠ .nan) :
    (Cmp.min x y = x ∨ Cmp.min x y = y) ∧ (Cmp.min x y).value.Le x.value ∧ (Cmp.min x y).value.Le y.value := by
  rw [fmin_def]
  by_cases h : x.value.Lt y.value
  · rw [if_pos h]; exact ⟨.inl rfl, le_refl' hx, .inl h⟩
  · rw [if_neg h]; exact ⟨.inr rfl, (lt_or_le hx hy).resolve_left h, le_refl' hy⟩

/-- **C104** Of two numbers, infinities included, the maximum is one and not below either of them. -/
theorem C104_max_partial (x y : FNum val) (hx : x.value ≠ .nan) (hy : y.value ≠ .nan) :
    (Cmp.max x y = x ∨ Cmp.max x y = y) ∧ x.value.Le (Cmp.max x y).value ∧ y.value.Le (Cmp.max x y).value := by
  rw [fmax_def]
  by_cases h : y.value.Lt x.value
  · rw [if_pos h]; exact ⟨.inl rfl, le_refl' hx, .inl h⟩
  · rw [if_neg h]; exact ⟨.inr rfl, (lt_or_le hy hx).resolve_left h, le_refl' hy⟩

/-- **C104** With bounds `l <= h` the result of clamping is between them, whatever is clamped: of a NaN it is `h`.  A number between the bounds is kept, one
beyond a bound becomes the bound. -/
theorem C104_clamp (x l h : FNum val) (hlh : l.value.Le h.value) :
    l.value.Le (Cmp.clamp x l h).value ∧ (Cmp.clamp x l h).value.Le h.value ∧
      (l.value.Le x.value → x.value.Le h.value → (Cmp.clamp x l h).value.Eq x.value) ∧
      (l.value.Le x.value → x.value.Lt h.value → Cmp.clamp x l h = x) ∧
      (x.value.Lt l.value → Cmp.clamp x l h = l) ∧ (h.value.Lt x.value → Cmp.clamp x l h = h) ∧ (x.value = .nan → Cmp.clamp x l h = h) := by
  obtain ⟨hl, hh⟩ := not_nan_of_le hlh
  have nlh := not_lt_of_le hlh
  have e : Cmp.clamp x l h = if x.value.Lt h.value then (if x.value.Lt l.value then l else x) else h := by
    rw [Cmp.clamp, fmin_def]
    by_cases h1 : x.value.Lt h.value
    · rw [if_pos h1, if_pos h1]; rfl
    · rw [if_neg h1, if_neg h1, fmax_def, if_neg nlh]
  rw [e]
  by_cases h1 : x.value.Lt h.value
  · have hx : x.value ≠ .nan := by rintro hx; rw [hx] at h1; exact nan_lt _ h1
    by_cases h2 : x.value.Lt l.value
    · simp only [if_pos h1, if_pos h2]
      refine ⟨le_refl' hl, hlh, fun h3 => absurd h2 (not_lt_of_le h3), fun h3 => absurd h2 (not_lt_of_le h3), fun _ => trivial, fun h3 => ?_, fun h3 => absurd h3 hx⟩
      exact absurd h1 (not_lt_of_le (.inl h3))
    · simp only [if_pos h1, if_neg h2]
      refine ⟨(lt_or_le hx hl).resolve_left h2, .inl h1, fun _ _ => eq_of_le_le (le_refl' hx) (le_refl' hx), fun _ _ => trivial, fun h3 => absurd h3 h2, fun h3 => ?_,
        fun h3 => absurd h3 hx⟩
      exact absurd h1 (not_lt_of_le (.inl h3))
  · simp only [if_neg h1]
    refine ⟨hlh, le_refl' hh, fun h2 h3 => ?_, fun _ h3 => absurd h3 h1, fun h3 => ?_, fun _ => trivial, fun _ => trivial⟩
    · obtain ⟨-, hx⟩ := not_nan_of_le h2
      exact eq_of_le_le ((lt_or_le hx hh).resolve_left h1) h3
    · exfalso
      have hx : x.value ≠ .nan := by rintro hx; rw [hx] at h3; exact nan_lt _ h3
      exact not_lt_of_le hlh (lt_of_le_lt ((lt_or_le hx hh).resolve_left h1) h3)

/-- **C104** Clamping twice gives what clamping once gives. -/
theorem C104_clamp_idempotent (x l h : FNum val) (hlh : l.value.Le h.value) :
    (Cmp.clamp (Cmp.clamp x l h) l h).value.Eq (Cmp.clamp x l h).value := by
  obtain ⟨h1, h2, -⟩ := C104_clamp x l h hlh
  exact (C104_clamp (Cmp.clamp x l h) l h hlh).2.2.1 h1 h2

/-- **C104** (counterexample) If one of the arguments is a NaN, minimum and maximum are the second argument: a NaN is passed over as first argument, but returned
as second. -/
theorem C104_min_max_nan (x y : FNum val) (h : x.value = .nan ∨ y.value = .nan) : Cmp.min x y = y ∧ Cmp.max x y = y := by
  rw [fmin_def, fmax_def]
  rcases h with h | h <;> rw [h]
  · exact ⟨if_neg (nan_lt _), if_neg (lt_nan _)⟩
  · exact ⟨if_neg (lt_nan _), if_neg (nan_lt _)⟩

/-- **C104** (counterexample) An upper bound that is a NaN makes every result a NaN; a lower bound that is one is passed over. -/
theorem C104_clamp_nan (x l h : FNum val) :
    (h.value = .nan → (Cmp.clamp x l h).value = .nan) ∧ (l.value = .nan → Cmp.clamp x l h = Cmp.min x h) := by
  constructor
  · intro hh
    rw [Cmp.clamp, (C104_min_max_nan x h (.inr hh)).1, (C104_min_max_nan l h (.inr hh)).2, hh]
  · intro hl
    rw [Cmp.clamp, (C104_min_max_nan l _ (.inl hl)).2]

end

/-! ### Concrete cases: 1.5, -2.0, a NaN, the zeros, and an infinity -/

theorem value_examples : floatValue 8 23 0x3FC00000 = .num (3 / 2) ∧ floatValue 8 23 0xC0000000 = .num (-2) ∧ floatValue 8 23 0x7FC00000 = .nan ∧
    floatValue 8 23 0x7F800000 = .inf false ∧ floatValue 8 23 0 = .num 0 ∧ floatValue 8 23 0x80000000 = .num 0 := by
  norm_num [floatValue, steps]

example : (⟨0xC0000000⟩ : F32).value.Le (⟨0x3FC00000⟩ : F32).value ∧ (⟨0x3FC00000⟩ : F32).value ≠ .nan := by
  have h1 : (⟨0xC0000000⟩ : F32).value = .num (-2) := value_examples.2.1
  have h2 : (⟨0x3FC00000⟩ : F32).value = .num (3 / 2) := value_examples.1
  rw [h1, h2]
  exact ⟨.inl (by show (-2 : ℚ) < 3 / 2; norm_num), by simp⟩

/-- The minimum of the zeros is the second one: the same number with other bits. -/
example : Cmp.min (⟨0⟩ : F32) ⟨0x80000000⟩ = ⟨0x80000000⟩ ∧ Cmp.min (⟨0x80000000⟩ : F32) ⟨0⟩ = ⟨0⟩ := by
  have h1 : (⟨0⟩ : F32).value = .num 0 := value_examples.2.2.2.2.1
  have h2 : (⟨0x80000000⟩ : F32).value = .num 0 := value_examples.2.2.2.2.2
  rw [fmin_def, fmin_def, h1, h2]
  exact ⟨if_neg (lt_irrefl (0 : ℚ)), if_neg (lt_irrefl (0 : ℚ))⟩

/-- `vt_cmp_minf(1.5, NaN)` is NaN, `vt_cmp_minf(NaN, 1.5)` is 1.5. -/
example : Cmp.min (⟨0x3FC00000⟩ : F32) ⟨0x7FC00000⟩ = ⟨0x7FC00000⟩ ∧ Cmp.min (⟨0x7FC00000⟩ : F32) ⟨0x3FC00000⟩ = ⟨0x3FC00000⟩ :=
  have h : (⟨0x7FC00000⟩ : F32).value = .nan := value_examples.2.2.1
  ⟨(C104_min_max_nan _ _ (.inr h)).1, (C104_min_max_nan _ _ (.inl h)).1⟩

end Vita
