import Verif.Model.LogCode
import Verif.Props.DateTime
import Verif.Props.Log
import Verif.Props.Release
/-!
# C112: out-of-range arguments get the replacement the headers document

log.h:70, 78, 86, 93: "if invalid log_level is specified, VT_LOG_INFO is used".
datetime.h:176-177, 185, 193, 225, 247, …: the month is moved into 1..12; February has 28 days in an invalid year; elsewhere 1900 is used for an
invalid year.  datetime.h:160, 168: -1 upon an invalid date.  Which years are invalid is not
documented; the code tests for negative years, or for the year 0.
-/

namespace Vita
open Out Spec

namespace Spec

/-- The level that a number means according to log.h: the enumerators in order, and information for all other numbers. -/
def levelMeant : Nat → Log.Level
  | 1 => .warn
  | 2 => .debug
  | 3 => .error
  | 4 => .fatal
  | 5 => .assert
  | _ => .info

end Spec

/-! ### Log levels -/

theorem entry_meant {n : Nat} (h : n < 6) : Log.entry n = .ok (levelMeant n) := by
  interval_cases n <;> rfl

theorem entry_beyond {n : Nat} (h : 6 ≤ n) : Log.entry n = .ub := by
  unfold Log.entry
  rw [show Log.table[n]? = none from List.getElem?_eq_none (by simpa [Log.table] using h)]

/-- **C112.** The numbers of the enumeration name the levels, in all builds. -/
theorem C112_log_level_partial (E : Env) (s : Log.St) {n : Nat} (h : n < 6) (z : Option Mem) (expr : Bool) (m : Log.Msg) :
    Log.redirectCode E s n z = Log.redirectLevel s (levelMeant n) z ∧ Log.levelStrCode E n = .ok (levelMeant n).str ∧
    Log.logCode E s z n expr m = Log.log E.debug s z (levelMeant n) expr m := by
  have hd : decide (n < 6) = true := decide_eq_true h
  have he : decide (n = 4 ∨ n = 5) = decide (levelMeant n = .fatal ∨ levelMeant n = .assert) := by
    interval_cases n <;> rfl
  refine ⟨?_, ?_, ?_⟩
  · unfold Log.redirectCode
    rw [hd, dassert_true, bind_ok, entry_meant h, bind_ok]
  · unfold Log.levelStrCode
    rw [hd, dassert_true, bind_ok, entry_meant h, bind_ok]
  · unfold Log.logCode Log.log
    rw [hd, dassert_true, bind_ok, entry_meant h]
    cases expr
    · simp only [Bool.not_false, if_true, bind_ok, he]
      cases z <;> rfl
    · rfl

/-- **C112, disagreement.** Every other number ends debug builds, and makes the other builds read or write outside of a table; only a log call whose condition
holds, or whose own file cannot be opened, returns. -/
theorem C112_log_level_actual (E : Env) (s : Log.St) {n : Nat} (h : 6 ≤ n) (z : Option Mem) (m : Log.Msg) :
    (E.debug = true → ∀ expr, Log.redirectCode E s n z = .exit .dbgAssert ∧ Log.levelStrCode E n = .exit .dbgAssert ∧
      Log.logCode E s z n expr m = .exit .dbgAssert) ∧
    (E.debug = false → Log.redirectCode E s n z = .ub ∧ Log.levelStrCode E n = .ub ∧ Log.logCode E s none n false m = .ub ∧
      Log.logCode E s z n true m = .ok (s, false) ∧
      ∀ f t, scanZ f = .ok t → Log.logCode E s (some f) n false m = if t ≠ [] ∧ Fs.openW s.world true t = none then .ok (s, false) else .ub) := by
  have hd : decide (n < 6) = false := decide_eq_false (by omega)
  constructor
  · intro hE expr
    unfold Log.redirectCode Log.levelStrCode Log.logCode
    rw [hd, dassert_false hE]
    exact ⟨rfl, rfl, rfl⟩
  · intro hE
    unfold Log.redirectCode Log.levelStrCode Log.logCode
    rw [dassert_release hE, bind_ok, entry_beyond h]
    refine ⟨rfl, rfl, rfl, rfl, fun f t hf => ?_⟩
    simp only [bind_ok, Bool.not_false, if_true, hf, bind_ub]
    by_cases ht : t = []
    · simp [ht]
    · cases ho : Fs.openW s.world true t <;> simp [ht, hE]

/-- Example: level 6 in a release build, whose documented meaning is a line on `stderr`. -/
example : Log.levelStrCode ⟨false, fun n => n < 1000, true, by intro n h; simp at h; omega⟩ 6 = .ub ∧ levelMeant 6 = .info ∧
    Log.levelStrCode ⟨false, fun n => n < 1000, true, by intro n h; simp at h; omega⟩ 3 = .ok (chars' "ERROR") := by
  refine ⟨rfl, rfl, rfl⟩

/-- **C82** The functions of log.c do the same in debug and release builds unless a debug check fails or, in `vt_log`, the message about a file that cannot be
opened is printed, which is undefined in debug builds (C66). -/
theorem C82_log_functions (E : Env) (s : Log.St) (n : Nat) (z : Option Mem) (expr : Bool) (m : Log.Msg) :
    Agree (Log.redirectCode E s n z) (Log.redirectCode E.release s n z) ∧ Agree (Log.levelStrCode E n) (Log.levelStrCode E.release n) ∧
    (Agree (Log.logCode E s z n expr m) (Log.logCode E.release s z n expr m) ∨
      Log.logCode E s z n expr m = .ub ∧ Log.logCode E.release s z n expr m = .ok (s, false)) := by
  by_cases h : n < 6
  · obtain ⟨h1, h2, h3⟩ := C112_log_level_partial E s h z expr m
    obtain ⟨h4, h5, h6⟩ := C112_log_level_partial E.release s h z expr m
    rw [h1, h2, h3, h4, h5, h6]
    refine ⟨Agree.refl _, Agree.refl _, ?_⟩
    unfold Log.log
    cases expr
    · cases ht : scanZ (z.getD (s.names (levelMeant n))) with
      | ok t =>
        simp only [bind_ok, Bool.not_false, if_true]
        by_cases h0 : t = []
        · exact Or.inl (by rw [if_pos h0, if_pos h0]; exact Agree.refl _)
        · rw [if_neg h0, if_neg h0]
          cases ho : Fs.openW s.world true t with
          | none =>
            cases hE : E.debug
            · exact Or.inl (Agree.refl _)
            · exact Or.inr ⟨rfl, rfl⟩
          | some r => exact Or.inl (Agree.refl _)
      | exit w => exact Or.inl (Agree.refl _)
      | ub => exact Or.inl (Agree.refl _)
      | fuel => exact Or.inl (Agree.refl _)
    · exact Or.inl (Agree.refl _)
  · obtain ⟨h1, h2⟩ := C112_log_level_actual E s (Nat.le_of_not_lt h) z m
    cases hE : E.debug
    · have e : E.release = E := by cases E; cases hE; rfl
      rw [e]
      exact ⟨Agree.refl _, Agree.refl _, Or.inl (Agree.refl _)⟩
    · obtain ⟨h3, h4, h5⟩ := h1 hE expr
      exact ⟨Or.inl h3, Or.inl h4, Or.inl (Or.inl h5)⟩

/-! ### Dates -/

open DT

/-- The month that is used instead of one out of range, datetime.h:176. -/
def monthMeant (m : Int) : Int := if m < 1 then 1 else if 12 < m then 12 else m

/-- **C112.** The length of a month out of range is that of the nearest month of the year. -/
theorem C112_month (d : VDT) : findDaysInMonth d = findDaysInMonth { d with month := monthMeant d.month } ∧
    (d.month < 1 ∨ 12 < d.month → findDaysInMonth d = 31) := by
  unfold findDaysInMonth monthMeant isLeapYear
  constructor
  · simp only
    by_cases h1 : d.month < 1
    · simp [h1]
    · by_cases h2 : 12 < d.month
      · simp [h1, h2]
      · simp [h1, h2]
  · intro h
    by_cases h1 : d.month < 1
    · simp [h1]
    · have h2 : d.month > 12 := by omega
      simp [h1, h2]

/-- **C112.** February of the year 0 has 28 days; of every negative year 29, although 28 is documented. -/
theorem C112_february_partial (d : VDT) (h : d.month = 2) :
    (d.year = 0 → findDaysInMonth d = 28) ∧ (d.year < 0 → findDaysInMonth d = 29) := by
  unfold findDaysInMonth
  constructor
  · intro h0; simp [h, h0]
  · intro h0
    simp [h, h0, (C50_negative_years d h0).1, minYear]

/-- **C112.** The leap year test and the length of the year use 1900 for negative years (and take it for a leap year, C50); the year 0 and the years up to 1899 are not replaced. -/
theorem C112_leap_year (d : VDT) (h : d.year < 0) :
    isLeapYear d = isLeapYear { d with year := 1900 } ∧ findDaysInYear d = findDaysInYear { d with year := 1900 } := by
  have h1 := C50_negative_years d h
  have h2 : isLeapYear { d with year := 1900 } = true := by unfold isLeapYear; rfl
  exact ⟨by rw [h1.1, h2], by rw [h1.2]; simp [findDaysInYear, h2]⟩

/-- The days before a year and a month are increasing in the year. -/
theorem dayNumber_year_lt {y z : Int} (h : y < z) (mon mday : Int) : dayNumber y mon mday < dayNumber z mon mday := by
  unfold dayNumber daysBeforeYear daysBeforeMonth leap
  generalize mon / 12 = q
  generalize mon % 12 = r
  by_cases h2 : 2 ≤ r
  · simp only [h2, and_true, Bool.and_eq_true, Bool.or_eq_true, beq_iff_eq, bne_iff_ne]
    generalize (if r ≤ 0 then (0 : Int) else _) = b
    split <;> split <;> omega
  · simp only [h2, and_false, if_false]
    generalize (if r ≤ 0 then (0 : Int) else _) = b
    omega

theorem toSecs_year_lt (zn : Zone) (d : VDT) {y z : Int} (hy : y ≠ 0) (hz : z ≠ 0) (h : y < z) :
    toSecs zn { d with year := y } < toSecs zn { d with year := z } := by
  simp only [toSecs, mktime, tmSecs, vdtToTm]
  rw [if_pos hy, if_pos hz]
  have := dayNumber_year_lt (y := y - minYear + 1900) (z := z - minYear + 1900) (by omega) (d.month - 1) d.mday
  omega

/-- **C112, disagreement.** No year is replaced by 1900 when a date is converted to seconds: the result is the one for 1900 only in the year 1900.  The year 0
gives a later moment, every other year the moment it stands for. -/
theorem C112_to_secs_actual (zn : Zone) (d : VDT) :
    (toSecs zn d = toSecs zn { d with year := 1900 } ↔ d.year = 1900) ∧ (d.year = 0 → toSecs zn { d with year := 1900 } < toSecs zn d) ∧
    (d.year < 0 → toSecs zn d < toSecs zn { d with year := 1900 }) := by
  have h0 : d.year = 0 → toSecs zn { d with year := 1900 } < toSecs zn d := by
    intro h
    rw [C49_year_zero zn d h]
    exact toSecs_year_lt zn d (by omega) (by omega) (by omega)
  have hl : d.year ≠ 0 → d.year < 1900 → toSecs zn d < toSecs zn { d with year := 1900 } := fun h h' =>
    toSecs_year_lt zn d h (by omega) h'
  have hg : 1900 < d.year → toSecs zn { d with year := 1900 } < toSecs zn d := fun h =>
    toSecs_year_lt zn d (by omega) (by omega) h
  refine ⟨⟨fun h => ?_, fun h => by rw [← h]⟩, h0, fun h => hl (by omega) (by omega)⟩
  by_contra hn
  by_cases h1 : d.year = 0
  · have := h0 h1; omega
  · rcases lt_or_gt_of_ne hn with h2 | h2
    · have := hl h1 h2; omega
    · have := hg h2; omega

/-- **C112, disagreement.** Nor is one in the differences. -/
theorem C112_diff_actual (zn : Zone) (a b : VDT) : diffSecs zn a b = diffSecs zn { a with year := 1900 } b ↔ a.year = 1900 := by
  rw [← (C112_to_secs_actual zn a).1]
  unfold diffSecs
  omega

/-- **C112, disagreement.** A date that does not exist is not answered with -1: months are counted on into other years, and days into other months.  Here for
all months: the answer is the one for the date with the month reduced by whole years. -/
theorem C112_invalid_date_counted_on (E : Env) (zn : Zone) (d : VDT) (k : Int) (h0 : d.year ≠ 0) (h1 : d.year + k ≠ 0) :
    findYearDay E zn { d with month := d.month + 12 * k } = findYearDay E zn { d with year := d.year + k } ∧
    findWeekDay E zn { d with month := d.month + 12 * k } = findWeekDay E zn { d with year := d.year + k } := by
  have e : mktime zn (vdtToTm { d with month := d.month + 12 * k }) = mktime zn (vdtToTm { d with year := d.year + k }) := by
    simp only [mktime, tmSecs, vdtToTm]
    rw [if_pos h0, if_pos h1]
    have : dayNumber (d.year - minYear + 1900) (d.month + 12 * k - 1) d.mday =
        dayNumber (d.year + k - minYear + 1900) (d.month - 1) d.mday := by
      unfold dayNumber
      rw [show d.year - minYear + 1900 + (d.month + 12 * k - 1) / 12 = d.year + k - minYear + 1900 + (d.month - 1) / 12 by omega,
        show (d.month + 12 * k - 1) % 12 = (d.month - 1) % 12 by omega]
    rw [this]
  constructor
  · unfold findYearDay; rw [e]
  · unfold findWeekDay; rw [e]

/-- Example: the 13th month of 2020 is January 2021; 31 February 2021 is the 62nd day of the year. -/
example : findYearDay ⟨true, fun n => n < 1000, true, by intro n h; simp at h; omega⟩ 0 ⟨2020, 13, 5, 0, 0, 0, 0, 0⟩ = .ok 5 ∧
    findYearDay ⟨true, fun n => n < 1000, true, by intro n h; simp at h; omega⟩ 0 ⟨2021, 2, 31, 0, 0, 0, 0, 0⟩ = .ok 62 ∧
    findDaysInMonth ⟨2021, 14, 0, 0, 0, 0, 0, 0⟩ = 31 ∧ findDaysInMonth ⟨-5, 2, 0, 0, 0, 0, 0, 0⟩ = 29 ∧
    toSecs 0 ⟨0, 1, 1, 0, 0, 0, 0, 0⟩ = 57749241600 ∧ toSecs 0 ⟨1900, 1, 1, 0, 0, 0, 0, 0⟩ = -2208988800 := by decide +kernel

end Vita
