import Mathlib.Algebra.BigOperators.Group.List.Basic
/-!
# The Gregorian calendar, by counting days
-/

namespace Vita.Spec

/-- Gregorian leap years. -/
def Leap (y : Int) : Prop := 4 ∣ y ∧ (100 ∣ y → 400 ∣ y)

instance (y : Int) : Decidable (Leap y) := inferInstanceAs (Decidable (_ ∧ (_ → _)))

/-- Number of days of a year. -/
def yearLength (y : Int) : Nat := if Leap y then 366 else 365

/-- Number of days of a month (1 = January). -/
def monthLength (y : Int) (m : Nat) : Nat :=
  if m = 2 then (if Leap y then 29 else 28)
  else if m = 4 ∨ m = 6 ∨ m = 9 ∨ m = 11 then 30 else 31

/-- A point of civil time.  Years are counted astronomically (the year before 1 is 0), in the Gregorian calendar throughout. -/
structure Civil where
  year : Int
  month : Nat
  day : Nat
  hour : Nat
  minute : Nat
  second : Nat
  deriving DecidableEq, Repr

/-- Dates and times of day that exist. -/
def Civil.Valid (c : Civil) : Prop :=
  1 ≤ c.month ∧ c.month ≤ 12 ∧ 1 ≤ c.day ∧ c.day ≤ monthLength c.year c.month ∧
  c.hour < 24 ∧ c.minute < 60 ∧ c.second < 60

instance (c : Civil) : Decidable c.Valid := inferInstanceAs (Decidable (_ ∧ _))

/-- Chronological order: lexicographic. -/
def Civil.Before (a b : Civil) : Prop :=
  a.year < b.year ∨ (a.year = b.year ∧ (a.month < b.month ∨ (a.month = b.month ∧ (a.day < b.day ∨ (a.day = b.day ∧
    (a.hour < b.hour ∨ (a.hour = b.hour ∧ (a.minute < b.minute ∨ (a.minute = b.minute ∧ a.second < b.second)))))))))

/-- The day of the year, 1 = January 1st: the lengths of the earlier months, and the day of the month. -/
def Civil.yearDay (c : Civil) : Nat := ((List.range (c.month - 1)).map (fun k => monthLength c.year (k + 1))).sum + c.day

/-- The number of days of the `n` years from `y` on. -/
def yearsLength (y : Int) (n : Nat) : Nat := ((List.range n).map (fun k : Nat => yearLength (y + k))).sum

/-- Days since January 1st, 1970 (negative before): the lengths of the years in between, and the earlier days of the year. -/
def Civil.days (c : Civil) : Int :=
  (yearsLength 1970 (c.year - 1970).toNat : Int) - yearsLength c.year (1970 - c.year).toNat + (c.yearDay - 1)

/-- The day of the week, 1 = Monday; January 1st, 1970 was a Thursday. -/
def Civil.weekDay (c : Civil) : Int := (c.days + 3) % 7 + 1

/-- Seconds since January 1st, 1970, 0:00 (negative before). -/
def Civil.secs (c : Civil) : Int := c.days * 86400 + c.hour * 3600 + c.minute * 60 + c.second

example : (⟨2000, 3, 1, 0, 0, 0⟩ : Civil).days = 11017 ∧ (⟨1969, 12, 31, 23, 59, 59⟩ : Civil).secs = -1 ∧
    (⟨1, 1, 1, 0, 0, 0⟩ : Civil).days = -719162 ∧ (⟨2026, 11, 16, 0, 0, 0⟩ : Civil).weekDay = 1 ∧
    (⟨2024, 12, 31, 0, 0, 0⟩ : Civil).yearDay = 366 := by decide +kernel

end Vita.Spec
