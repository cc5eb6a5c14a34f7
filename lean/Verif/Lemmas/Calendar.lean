import Verif.Spec.Calendar
import Verif.Model.DateTime
import Mathlib.Tactic.IntervalCases
/-!
# The C library's calendar arithmetic counts days
-/

namespace Vita.DT
open Spec

theorem leap_iff (y : Int) : leap y = true ↔ Leap y := by
  unfold leap Leap
  simp only [Bool.and_eq_true, beq_iff_eq, Bool.or_eq_true, bne_iff_ne, ne_eq]
  omega

theorem daysBeforeYear_succ (y : Int) : daysBeforeYear (y + 1) = daysBeforeYear y + yearLength y := by
  unfold daysBeforeYear yearLength
  by_cases h : Leap y
  · rw [if_pos h]; unfold Leap at h; omega
  · rw [if_neg h]; unfold Leap at h; omega

theorem yearLength_bounds (y : Int) : 365 ≤ yearLength y ∧ yearLength y ≤ 366 := by
  unfold yearLength; split <;> simp

theorem yearsLength_succ (y : Int) (n : Nat) : yearsLength y (n + 1) = yearsLength y n + yearLength (y + n) := by
  unfold yearsLength
  rw [List.range_succ, List.map_append, List.sum_append]
  simp

theorem daysBeforeYear_add (y : Int) (n : Nat) : daysBeforeYear (y + n) = daysBeforeYear y + yearsLength y n := by
  induction n with
  | zero => simp [yearsLength]
  | succ n ih =>
    rw [show y + ((n + 1 : Nat) : Int) = y + n + 1 by omega, daysBeforeYear_succ, ih, yearsLength_succ]
    push_cast
    omega

/-- The POSIX formula counts the days of the years between 1970 and `y`. -/
theorem daysBeforeYear_sum (y : Int) :
    daysBeforeYear y = (yearsLength 1970 (y - 1970).toNat : Int) - yearsLength y (1970 - y).toNat := by
  have h0 : daysBeforeYear 1970 = 0 := by decide
  rcases Int.le_total 1970 y with h | h
  · have e := daysBeforeYear_add 1970 (y - 1970).toNat
    rw [show 1970 + ((y - 1970).toNat : Int) = y by omega, h0] at e
    rw [e, show (1970 - y).toNat = 0 by omega]
    simp [yearsLength]
  · have e := daysBeforeYear_add y (1970 - y).toNat
    rw [show y + ((1970 - y).toNat : Int) = 1970 by omega, h0] at e
    rw [show (y - 1970).toNat = 0 by omega]
    simp only [show yearsLength 1970 0 = 0 from rfl]
    omega

theorem Civil.days_eq (c : Civil) : c.days = daysBeforeYear c.year + (c.yearDay - 1) := by
  rw [daysBeforeYear_sum]; rfl

theorem year_estimate {y day : Int} (h1 : daysBeforeYear y ≤ day) (h2 : day < daysBeforeYear (y + 1)) :
    y - 1 ≤ 1970 + day * 400 / 146097 ∧ 1970 + day * 400 / 146097 ≤ y + 1 := by
  unfold daysBeforeYear at *
  constructor <;> omega

theorem yearOf_eq {y day : Int} (h1 : daysBeforeYear y ≤ day) (h2 : day < daysBeforeYear (y + 1)) : yearOf day = y := by
  have he := year_estimate h1 h2
  have s1 := daysBeforeYear_succ y
  have s2 := daysBeforeYear_succ (y + 1)
  unfold yearOf
  simp only
  generalize 1970 + day * 400 / 146097 = y0 at he
  have : y0 = y - 1 ∨ y0 = y ∨ y0 = y + 1 := by omega
  rcases this with rfl | rfl | rfl
  · rw [if_pos (by rw [show y - 1 + 1 = y by omega]; exact h1)]; omega
  · rw [if_neg (by omega), if_neg (by omega)]
  · rw [if_neg (by omega), if_pos h2]; omega

theorem daysBeforeMonth_sum (y : Int) (m : Nat) (h : m ≤ 11) :
    daysBeforeMonth y m = (((List.range m).map (fun k => monthLength y (k + 1))).sum : Nat) := by
  unfold daysBeforeMonth monthLength
  simp only [leap_iff]
  by_cases hl : Leap y
  · interval_cases m <;> simp [hl, List.range_succ]
  · interval_cases m <;> simp [hl, List.range_succ]

theorem monthLength_bounds (y : Int) (m : Nat) : 28 ≤ monthLength y m ∧ monthLength y m ≤ 31 := by
  unfold monthLength
  split
  · split <;> simp
  · split <;> simp

theorem monthOf_eq (y : Int) (m : Nat) (h : m ≤ 11) (d : Int) (h1 : 0 ≤ d) (h2 : d < monthLength y (m + 1)) :
    monthOf y (daysBeforeMonth y m + d) 11 = m := by
  unfold monthLength at h2
  by_cases hl : Leap y
  · have hl' := (leap_iff y).2 hl
    simp only [if_pos hl] at h2
    interval_cases m <;> simp [monthOf, daysBeforeMonth, hl'] at h2 ⊢ <;> omega
  · have hl' : ¬ leap y = true := fun g => hl ((leap_iff y).1 g)
    simp only [if_neg hl] at h2
    interval_cases m <;> simp [monthOf, daysBeforeMonth, hl'] at h2 ⊢ <;> omega

theorem yearDay_le {c : Civil} (h : c.Valid) : 1 ≤ c.yearDay ∧ c.yearDay ≤ yearLength c.year := by
  obtain ⟨h2, h3, h4, h5, -⟩ := h
  unfold Civil.yearDay
  refine ⟨by omega, ?_⟩
  generalize c.month = m at *
  generalize c.year = y at *
  unfold monthLength yearLength at *
  by_cases hl : Leap y
  · interval_cases m <;> simp [hl, List.range_succ] at h5 ⊢ <;> omega
  · interval_cases m <;> simp [hl, List.range_succ] at h5 ⊢ <;> omega

/-- The library's day number of a valid date is the number of days counted from 1970. -/
theorem dayNumber_eq {c : Civil} (h : c.Valid) : dayNumber c.year (c.month - 1) c.day = c.days := by
  obtain ⟨h2, h3, h4, -⟩ := h
  rw [Civil.days_eq]
  unfold dayNumber Civil.yearDay
  have e1 : ((c.month : Int) - 1) / 12 = 0 := by omega
  have e2 : ((c.month : Int) - 1) % 12 = ((c.month - 1 : Nat) : Int) := by omega
  rw [e1, e2, Int.add_zero, daysBeforeMonth_sum _ _ (by omega)]
  omega

/-- The broken-down time of the seconds value of a valid civil time. -/
theorem brokenDown_eq {c : Civil} (h : c.Valid) (off : Int) : brokenDown off (c.secs - off) =
    ⟨c.year - 1900, c.month - 1, c.day, c.hour, c.minute, c.second, (c.days + 4) % 7, c.yearDay - 1⟩ := by
  have hyd := yearDay_le h
  obtain ⟨h2, h3, h4, h5, h6, h7, h8⟩ := h
  have hs : (c.secs - off + off) / 86400 = c.days := by unfold Civil.secs; omega
  have hr : (c.secs - off + off) % 86400 = c.hour * 3600 + c.minute * 60 + c.second := by unfold Civil.secs; omega
  have hdays := Civil.days_eq c
  have hy : yearOf c.days = c.year := by
    apply yearOf_eq
    · omega
    · rw [daysBeforeYear_succ]; omega
  have hyday : c.days - daysBeforeYear c.year = c.yearDay - 1 := by omega
  have hmon : daysBeforeMonth c.year (c.month - 1 : Nat) + (c.day - 1) = c.yearDay - 1 := by
    rw [daysBeforeMonth_sum _ _ (by omega)]; unfold Civil.yearDay; omega
  have hm : monthOf c.year (c.yearDay - 1) 11 = (c.month - 1 : Nat) := by
    rw [← hmon]
    apply monthOf_eq _ _ (by omega) _ (by omega)
    rw [show c.month - 1 + 1 = c.month by omega]
    omega
  unfold brokenDown
  simp only [hs, hr, hy, hyday, hm, Tm.mk.injEq]
  refine ⟨trivial, by omega, by omega, by omega, by omega, by omega, trivial, trivial⟩

end Vita.DT
