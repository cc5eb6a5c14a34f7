import Verif.Lemmas.Calendar
import Verif.Props.Vec
/-!
# Properties C49 to C52: calendar arithmetic
-/

namespace Vita
open Out DT Spec

/-- The datetime `d` holds the date and time of day `c` (week day and day of year may be anything). -/
def Holds (d : VDT) (c : Civil) : Prop :=
  d.year = c.year ∧ d.month = c.month ∧ d.mday = c.day ∧ d.hour = c.hour ∧ d.minute = c.minute ∧ d.second = c.second

instance (d : VDT) (c : Civil) : Decidable (Holds d c) := inferInstanceAs (Decidable (_ ∧ _))

theorem i16_id {x : Int} (h : Is16 x) : i16 x = x := by
  unfold Is16 at h; unfold i16; omega

/-! ### Chronological order -/

theorem yearSum_mono {a b : Int} (h : a ≤ b) : daysBeforeYear a ≤ daysBeforeYear b := by
  unfold daysBeforeYear; omega

theorem days_lt {a b : Civil} (ha : a.Valid) (hb : b.Valid)
    (h : a.year < b.year ∨ (a.year = b.year ∧ (a.month < b.month ∨ (a.month = b.month ∧ a.day < b.day)))) : a.days < b.days := by
  have y1 := yearDay_le ha
  have y2 := yearDay_le hb
  have f1 := Civil.days_eq a
  have f2 := Civil.days_eq b
  rcases h with h | ⟨hy, h⟩
  · have := yearSum_mono (show a.year + 1 ≤ b.year from h)
    have s := daysBeforeYear_succ a.year
    omega
  · rw [hy] at f1
    suffices a.yearDay < b.yearDay by omega
    unfold Civil.yearDay
    rcases h with h | ⟨hm, h⟩
    · have hl := ha.2.2.2.1
      have hm1 := ha.1
      have : ((List.range (a.month - 1)).map (fun k => monthLength a.year (k + 1))).sum + monthLength a.year a.month ≤
          ((List.range (b.month - 1)).map (fun k => monthLength b.year (k + 1))).sum := by
        have hr : b.month - 1 = a.month + (b.month - 1 - a.month) := by omega
        rw [hr, List.range_add, List.map_append, List.sum_append, ← hy]
        have hr2 : List.range a.month = List.range (a.month - 1) ++ [a.month - 1] := by
          rw [← List.range_succ]; congr 1; omega
        rw [hr2, List.map_append, List.sum_append]
        simp only [List.map_cons, List.map_nil, List.sum_cons, List.sum_nil, Nat.add_zero]
        rw [show a.month - 1 + 1 = a.month by omega]
        omega
      have := hb.2.2.1
      omega
    · rw [hm, hy]
      omega

theorem secs_lt {a b : Civil} (ha : a.Valid) (hb : b.Valid) (h : a.Before b) : a.secs < b.secs := by
  obtain ⟨-, -, -, -, a6, a7, a8⟩ := id ha
  obtain ⟨-, -, -, -, b6, b7, b8⟩ := id hb
  unfold Civil.secs
  have lift : a.days < b.days → a.days * 86400 + a.hour * 3600 + a.minute * 60 + a.second <
      b.days * 86400 + b.hour * 3600 + b.minute * 60 + b.second := by omega
  have same : a.year = b.year → a.month = b.month → a.day = b.day → a.days = b.days := by
    intro h1 h2 h3
    unfold Civil.days Civil.yearDay
    rw [h1, h2, h3]
  unfold Civil.Before at h
  rcases h with h | ⟨h1, h | ⟨h2, h | ⟨h3, h⟩⟩⟩
  · exact lift (days_lt ha hb (Or.inl h))
  · exact lift (days_lt ha hb (Or.inr ⟨h1, Or.inl h⟩))
  · exact lift (days_lt ha hb (Or.inr ⟨h1, Or.inr ⟨h2, h⟩⟩))
  · have := same h1 h2 h3
    omega

/-! ### C49 -/

/-- **C49.** The seconds value is the number of seconds counted from the beginning of 1970 in the zone (backwards for earlier
times); for every year except 0. -/
theorem C49_to_secs (zn : Zone) {d : VDT} {c : Civil} (h : Holds d c) (hv : c.Valid) (h0 : c.year ≠ 0) :
    toSecs zn d = c.secs - zn.std := by
  obtain ⟨h1, h2, h3, h4, h5, h6⟩ := h
  simp only [toSecs, mktime, tmSecs, vdtToTm]
  rw [if_pos (by omega), h1, h2, h3, h4, h5, h6, show (c.year : Int) - minYear + 1900 = c.year by unfold minYear; omega,
    dayNumber_eq hv]
  unfold Civil.secs
  omega

/-- The datetime with the fields of a date and time of day, week day and day of year included. -/
def full (c : Civil) : VDT := ⟨c.year, c.month, c.day, c.hour, c.minute, c.second, c.weekDay, c.yearDay⟩

theorem full_holds (c : Civil) : Holds (full c) c := ⟨rfl, rfl, rfl, rfl, rfl, rfl⟩

/-- The broken-down time of a moment as a datetime. -/
theorem brokenDown_full {c : Civil} (hv : c.Valid) (hy : Is16 c.year) {off s : Int} (hs : c.secs = s + off) :
    tmToVdt (brokenDown off s) = full c ∧ -2 ^ 31 ≤ (brokenDown off s).year ∧ (brokenDown off s).year < 2 ^ 31 := by
  have hyd := yearDay_le hv
  have hyl := yearLength_bounds c.year
  have hb := brokenDown_eq hv off
  have hml := monthLength_bounds c.year c.month
  rw [show c.secs - off = s by omega] at hb
  obtain ⟨h2, h3, h4, h5, h6, h7, h8⟩ := hv
  unfold Is16 at hy
  rw [hb]
  refine ⟨?_, by simp only; omega, by simp only; omega⟩
  simp only [tmToVdt, minYear, full, VDT.mk.injEq]
  refine ⟨?_, ?_, ?_, ?_, ?_, ?_, ?_, ?_⟩
  · rw [i16_id (by unfold Is16; omega)]; omega
  · rw [i16_id (by unfold Is16; omega)]; omega
  · rw [i16_id (by unfold Is16; omega)]
  · rw [i16_id (by unfold Is16; omega)]
  · rw [i16_id (by unfold Is16; omega)]
  · rw [i16_id (by unfold Is16; omega)]
  · unfold Civil.weekDay
    split
    · rw [i16_id (by unfold Is16; omega)]; omega
    · rw [i16_id (by unfold Is16; omega)]; omega
  · rw [i16_id (by unfold Is16; omega)]; omega

/-- A seconds value is converted to the time of day that clocks in the zone show at that moment. -/
theorem fromSecs_full {c : Civil} (hv : c.Valid) (hy : Is16 c.year) {zn : Zone} {s : Int} (hs : c.secs = s + zn.offset s) :
    fromSecs zn s = .ok (full c) := by
  obtain ⟨h1, h2, h3⟩ := brokenDown_full hv hy hs
  simp only [fromSecs, localtime]
  rw [if_pos ⟨h2, h3⟩, bind_ok, h1]

/-- **C49.** Converting to seconds and back gives the same date and time of day, with week day and day of year filled in. -/
theorem C49_round_trip (off : Int) {d : VDT} {c : Civil} (h : Holds d c) (hv : c.Valid) (h0 : c.year ≠ 0) (hy : Is16 c.year) :
    fromSecs off (toSecs off d) = .ok ⟨c.year, c.month, c.day, c.hour, c.minute, c.second, c.weekDay, c.yearDay⟩ := by
  rw [C49_to_secs off h hv h0]
  exact fromSecs_full hv hy (by simp only; omega)

/-- **C49.** Later means more seconds. -/
theorem C49_increasing (zn : Zone) {d e : VDT} {a b : Civil} (hd : Holds d a) (he : Holds e b) (ha : a.Valid) (hb : b.Valid)
    (ha0 : a.year ≠ 0) (hb0 : b.year ≠ 0) (h : a.Before b) : toSecs zn d < toSecs zn e := by
  rw [C49_to_secs zn hd ha ha0, C49_to_secs zn he hb hb0]
  have := secs_lt ha hb h
  omega

theorem exists_month (Y : Int) (r : Nat) (hr : r < yearLength Y) : ∃ m : Nat, 1 ≤ m ∧ m ≤ 12 ∧
    ((List.range (m - 1)).map (fun k => monthLength Y (k + 1))).sum ≤ r ∧
    r < ((List.range (m - 1)).map (fun k => monthLength Y (k + 1))).sum + monthLength Y m := by
  unfold yearLength at hr
  by_cases hl : Leap Y
  · rw [if_pos hl] at hr
    have : r < 31 ∨ (31 ≤ r ∧ r < 60) ∨ (60 ≤ r ∧ r < 91) ∨ (91 ≤ r ∧ r < 121) ∨ (121 ≤ r ∧ r < 152) ∨ (152 ≤ r ∧ r < 182) ∨
      (182 ≤ r ∧ r < 213) ∨ (213 ≤ r ∧ r < 244) ∨ (244 ≤ r ∧ r < 274) ∨ (274 ≤ r ∧ r < 305) ∨ (305 ≤ r ∧ r < 335) ∨
      (335 ≤ r ∧ r < 366) := by omega
    rcases this with h | h | h | h | h | h | h | h | h | h | h | h
    · exact ⟨1, by simp [monthLength, hl, List.range_succ]; omega⟩
    · exact ⟨2, by simp [monthLength, hl, List.range_succ]; omega⟩
    · exact ⟨3, by simp [monthLength, hl, List.range_succ]; omega⟩
    · exact ⟨4, by simp [monthLength, hl, List.range_succ]; omega⟩
    · exact ⟨5, by simp [monthLength, hl, List.range_succ]; omega⟩
    · exact ⟨6, by simp [monthLength, hl, List.range_succ]; omega⟩
    · exact ⟨7, by simp [monthLength, hl, List.range_succ]; omega⟩
    · exact ⟨8, by simp [monthLength, hl, List.range_succ]; omega⟩
    · exact ⟨9, by simp [monthLength, hl, List.range_succ]; omega⟩
    · exact ⟨10, by simp [monthLength, hl, List.range_succ]; omega⟩
    · exact ⟨11, by simp [monthLength, hl, List.range_succ]; omega⟩
    · exact ⟨12, by simp [monthLength, hl, List.range_succ]; omega⟩
  · rw [if_neg hl] at hr
    have : r < 31 ∨ (31 ≤ r ∧ r < 59) ∨ (59 ≤ r ∧ r < 90) ∨ (90 ≤ r ∧ r < 120) ∨ (120 ≤ r ∧ r < 151) ∨ (151 ≤ r ∧ r < 181) ∨
      (181 ≤ r ∧ r < 212) ∨ (212 ≤ r ∧ r < 243) ∨ (243 ≤ r ∧ r < 273) ∨ (273 ≤ r ∧ r < 304) ∨ (304 ≤ r ∧ r < 334) ∨
      (334 ≤ r ∧ r < 365) := by omega
    rcases this with h | h | h | h | h | h | h | h | h | h | h | h
    · exact ⟨1, by simp [monthLength, hl, List.range_succ]; omega⟩
    · exact ⟨2, by simp [monthLength, hl, List.range_succ]; omega⟩
    · exact ⟨3, by simp [monthLength, hl, List.range_succ]; omega⟩
    · exact ⟨4, by simp [monthLength, hl, List.range_succ]; omega⟩
    · exact ⟨5, by simp [monthLength, hl, List.range_succ]; omega⟩
    · exact ⟨6, by simp [monthLength, hl, List.range_succ]; omega⟩
    · exact ⟨7, by simp [monthLength, hl, List.range_succ]; omega⟩
    · exact ⟨8, by simp [monthLength, hl, List.range_succ]; omega⟩
    · exact ⟨9, by simp [monthLength, hl, List.range_succ]; omega⟩
    · exact ⟨10, by simp [monthLength, hl, List.range_succ]; omega⟩
    · exact ⟨11, by simp [monthLength, hl, List.range_succ]; omega⟩
    · exact ⟨12, by simp [monthLength, hl, List.range_succ]; omega⟩

theorem yearOf_spec (day : Int) : daysBeforeYear (yearOf day) ≤ day ∧ day < daysBeforeYear (yearOf day + 1) := by
  have hx : ∃ y : Int, daysBeforeYear y ≤ day ∧ day < daysBeforeYear (y + 1) := by
    have hmono : ∀ a b : Int, a ≤ b → daysBeforeYear a ≤ daysBeforeYear b := by
      intro a b h; unfold daysBeforeYear; omega
    have lo : daysBeforeYear (1970 - (day.natAbs : Int) - 1) ≤ day := by unfold daysBeforeYear; omega
    have step : ∀ n : Nat, (∃ y : Int, daysBeforeYear y ≤ day ∧ day < daysBeforeYear (y + 1)) ∨
        daysBeforeYear (1970 - (day.natAbs : Int) - 1 + n) ≤ day := by
      intro n
      induction n with
      | zero => right; simpa using lo
      | succ n ih =>
        rcases ih with ih | ih
        · exact Or.inl ih
        · by_cases h : daysBeforeYear (1970 - (day.natAbs : Int) - 1 + n + 1) ≤ day
          · right
            rw [show (1970 - (day.natAbs : Int) - 1 + (n + 1 : Nat)) = 1970 - (day.natAbs : Int) - 1 + n + 1 by omega]
            exact h
          · exact Or.inl ⟨_, ih, by omega⟩
    rcases step (2 * day.natAbs + 3) with h | h
    · exact h
    · exfalso
      revert h
      unfold daysBeforeYear
      omega
  obtain ⟨y, h1, h2⟩ := hx
  rw [yearOf_eq h1 h2]
  exact ⟨h1, h2⟩

/-- Every second is the second of some valid civil time. -/
theorem exists_civil (n : Int) : ∃ c : Civil, c.Valid ∧ c.secs = n := by
  obtain ⟨h1, h2⟩ := yearOf_spec (n / 86400)
  generalize yearOf (n / 86400) = y at h1 h2
  rw [daysBeforeYear_succ] at h2
  obtain ⟨m, m1, m2, m3, m4⟩ := exists_month y (n / 86400 - daysBeforeYear y).toNat (by omega)
  generalize hM : ((List.range (m - 1)).map (fun k => monthLength y (k + 1))).sum = M at *
  refine ⟨⟨y, m, (n / 86400 - daysBeforeYear y).toNat - M + 1, (n % 86400 / 3600).toNat, (n % 3600 / 60).toNat, (n % 60).toNat⟩,
    ⟨m1, m2, by simp, by simp only; omega, by simp only; omega, by simp only; omega, by simp only; omega⟩, ?_⟩
  unfold Civil.secs
  rw [Civil.days_eq]
  simp only [Civil.yearDay, hM]
  omega

theorem secs_lt_year {c : Civil} (hv : c.Valid) (y : Int) : c.secs < (⟨y, 1, 1, 0, 0, 0⟩ : Civil).secs ↔ c.year < y := by
  have v : (⟨y, 1, 1, 0, 0, 0⟩ : Civil).Valid := by
    have := monthLength_bounds y 1
    exact ⟨by simp, by simp, by simp, by simp only; omega, by simp, by simp, by simp⟩
  constructor
  · intro h
    by_contra hc
    rcases eq_or_lt_of_le (not_lt.1 hc) with e | e
    · have hd : (⟨y, 1, 1, 0, 0, 0⟩ : Civil).days ≤ c.days := by
        have := yearDay_le hv
        have h1 : (⟨y, 1, 1, 0, 0, 0⟩ : Civil).yearDay = 1 := by simp [Civil.yearDay]
        rw [Civil.days_eq, Civil.days_eq, h1, ← e]
        simp only
        omega
      unfold Civil.secs at h
      simp only at h
      omega
    · exact absurd (secs_lt v hv (Or.inl e)) (by omega)
  · exact fun h => secs_lt hv v (Or.inl h)

/-- **C49.** The other direction: every seconds value (in the zone) whose year fits the struct and is not 0 is converted to
a valid date and time with exactly that seconds value. -/
theorem C49_secs_round_trip (off s : Int)
    (hy : (⟨-32768, 1, 1, 0, 0, 0⟩ : Civil).secs ≤ s + off ∧ s + off < (⟨32768, 1, 1, 0, 0, 0⟩ : Civil).secs)
    (h0 : s + off < (⟨0, 1, 1, 0, 0, 0⟩ : Civil).secs ∨ (⟨1, 1, 1, 0, 0, 0⟩ : Civil).secs ≤ s + off) :
    ∃ d c, fromSecs off s = .ok d ∧ Holds d c ∧ c.Valid ∧ toSecs off d = s ∧ d.wday = c.weekDay ∧ d.yday = c.yearDay := by
  obtain ⟨c, hv, hs⟩ := exists_civil (s + off)
  have e1 := secs_lt_year hv (-32768)
  have e2 := secs_lt_year hv 32768
  have e3 := secs_lt_year hv 0
  have e4 := secs_lt_year hv 1
  rw [hs] at e1 e2 e3 e4
  have hlt : Is16 c.year := ⟨by omega, by omega⟩
  have hn : c.year ≠ 0 := by omega
  have hh : Holds ⟨c.year, c.month, c.day, c.hour, c.minute, c.second, c.weekDay, c.yearDay⟩ c := ⟨rfl, rfl, rfl, rfl, rfl, rfl⟩
  have ht := C49_to_secs off hh hv hn
  have hr := C49_round_trip off hh hv hn hlt
  rw [ht] at hr
  have : c.secs - off = s := by omega
  rw [this] at hr ht
  exact ⟨_, c, hr, hh, hv, ht, rfl, rfl⟩

/-- **C49, disagreement.** The year 0 is taken for the year 3800. -/
theorem C49_year_zero (zn : Zone) (d : VDT) (h : d.year = 0) : toSecs zn d = toSecs zn { d with year := 3800 } := by
  simp [toSecs, mktime, tmSecs, vdtToTm, h, minYear]

/-- Example: the last second of February 2000 in a zone one hour east. -/
example : Holds ⟨2000, 2, 29, 23, 59, 59, 0, 0⟩ ⟨2000, 2, 29, 23, 59, 59⟩ ∧ (⟨2000, 2, 29, 23, 59, 59⟩ : Civil).Valid ∧
    toSecs 3600 ⟨2000, 2, 29, 23, 59, 59, 0, 0⟩ = 951865199 ∧
    fromSecs 3600 951865199 = .ok ⟨2000, 2, 29, 23, 59, 59, 2, 60⟩ := by decide +kernel

/-- Example: the second before 1970, and the first second of the year 1. -/
example : Holds ⟨1, 1, 1, 0, 0, 0, 0, 0⟩ ⟨1, 1, 1, 0, 0, 0⟩ ∧ (⟨1, 1, 1, 0, 0, 0⟩ : Civil).Valid ∧
    toSecs 0 ⟨1, 1, 1, 0, 0, 0, 0, 0⟩ = -62135596800 ∧ fromSecs 0 (-62135596800) = .ok ⟨1, 1, 1, 0, 0, 0, 1, 1⟩ ∧
    fromSecs 0 (-1) = .ok ⟨1969, 12, 31, 23, 59, 59, 3, 365⟩ := by decide +kernel

/-! ### C50 -/

theorem isLeapYear_iff {d : VDT} (h : 0 ≤ d.year) : isLeapYear d = true ↔ 4 ∣ d.year := by
  unfold isLeapYear
  rw [if_neg (by omega)]
  simp only [beq_iff_eq]
  rw [Int.tmod_eq_emod_of_nonneg h]
  omega

/-- **C50, what the code does.** The leap year test is right exactly for the years that are not divisible by 100 without being divisible by
400; for negative years the year 1900 is taken, which the code takes for a leap year. -/
theorem C50_leap_year_partial (d : VDT) (h : 0 ≤ d.year) : isLeapYear d = decide (Leap d.year) ↔ (100 ∣ d.year → 400 ∣ d.year) := by
  rw [Bool.eq_iff_iff, decide_eq_true_iff, isLeapYear_iff h]
  unfold Leap
  omega

/-- **C50.** Length of the year, for years where the test is right. -/
theorem C50_days_in_year_partial (d : VDT) (h : 0 ≤ d.year) (hc : 100 ∣ d.year → 400 ∣ d.year) :
    findDaysInYear d = yearLength d.year := by
  have := (C50_leap_year_partial d h).2 hc
  unfold findDaysInYear yearLength
  rw [this]
  by_cases hl : Leap d.year <;> simp [hl]

/-- **C50.** Length of the month, for months 1 to 12 of years from 1 on where the test is right. -/
theorem C50_days_in_month_partial (d : VDT) (m : Nat) (hm : d.month = m) (h1 : 1 ≤ m) (h2 : m ≤ 12) (h : 0 < d.year)
    (hc : 100 ∣ d.year → 400 ∣ d.year) : findDaysInMonth d = monthLength d.year m := by
  have := (C50_leap_year_partial d (by omega)).2 hc
  have hn : ¬ d.year < 0 := by omega
  unfold findDaysInMonth monthLength
  simp only [hm, this, hn, if_false]
  interval_cases m <;> by_cases hl : Leap d.year <;> simp [hl, h]

/-- **C50.** Months other than February are right in every year. -/
theorem C50_other_months (d : VDT) (m : Nat) (hm : d.month = m) (h1 : 1 ≤ m) (h2 : m ≤ 12) (h3 : m ≠ 2) :
    findDaysInMonth d = monthLength d.year m := by
  unfold findDaysInMonth monthLength
  simp only [hm]
  interval_cases m <;> simp_all

/-- **C50, disagreement.** Every year divisible by 100 and not by 400 is taken for a leap year with 366 days and, except in the
year 0, a 29th of February. -/
theorem C50_century_wrong (d : VDT) (h : 0 ≤ d.year) (h1 : 100 ∣ d.year) (h2 : ¬ 400 ∣ d.year) :
    isLeapYear d = true ∧ ¬ Leap d.year ∧ findDaysInYear d = 366 ∧ yearLength d.year = 365 ∧
    (d.month = 2 → findDaysInMonth d = 29 ∧ monthLength d.year 2 = 28) := by
  have hl : isLeapYear d = true := (isLeapYear_iff h).2 (by omega)
  have hn : ¬ Leap d.year := by unfold Leap; omega
  have h0 : d.year ≠ 0 := fun e => h2 (by rw [e]; omega)
  refine ⟨hl, hn, by simp [findDaysInYear, hl], by simp [yearLength, hn], fun hm => ?_⟩
  have hy : ¬ d.year < 0 := by omega
  refine ⟨?_, by simp [monthLength, hn]⟩
  unfold findDaysInMonth
  simp [hm, hy, hl]
  omega

/-- **C50, disagreement.** For negative years the code takes the year 1900, and that for a leap year. -/
theorem C50_negative_years (d : VDT) (h : d.year < 0) : isLeapYear d = true ∧ findDaysInYear d = 366 := by
  have hl : isLeapYear d = true := by unfold isLeapYear; rw [if_pos h]; decide
  exact ⟨hl, by simp [findDaysInYear, hl]⟩

/-- Example: 2100; and year 0, a leap year with 366 days but a February of 28. -/
example : (100 : Int) ∣ 2100 ∧ ¬ (400 : Int) ∣ 2100 ∧ findDaysInMonth ⟨2100, 2, 1, 0, 0, 0, 0, 0⟩ = 29 ∧
    findDaysInYear ⟨0, 2, 1, 0, 0, 0, 0, 0⟩ = 366 ∧ findDaysInMonth ⟨0, 2, 1, 0, 0, 0, 0, 0⟩ = 28 := by decide +kernel

/-- Example: 2024 and 2000. -/
example : findDaysInMonth ⟨2024, 2, 1, 0, 0, 0, 0, 0⟩ = 29 ∧ findDaysInMonth ⟨2000, 2, 1, 0, 0, 0, 0, 0⟩ = 29 ∧
    ((100 : Int) ∣ 2000 → (400 : Int) ∣ 2000) := by decide +kernel

/-! ### C51 -/

theorem findDaysInMonth_bounds (d : VDT) : 28 ≤ findDaysInMonth d ∧ findDaysInMonth d ≤ 31 := by
  unfold findDaysInMonth
  simp only
  generalize (if d.month < 1 then 1 else if d.month > 12 then 12 else d.month) = m
  split
  · simp
  · split
    · simp
    · by_cases hc : (if d.year < 0 then minYear else d.year) > 0 ∧ isLeapYear d = true
      · rw [if_pos hc]; simp
      · rw [if_neg hc]; simp

theorem brokenDown_ranges (off s : Int) :
    0 ≤ (brokenDown off s).wday ∧ (brokenDown off s).wday ≤ 6 ∧ 0 ≤ (brokenDown off s).yday ∧ (brokenDown off s).yday ≤ 365 := by
  have h := yearOf_spec ((s + off) / 86400)
  rw [daysBeforeYear_succ] at h
  have hb := yearLength_bounds (yearOf ((s + off) / 86400))
  simp only [brokenDown]
  omega

/-- The value of `vt_datetime_find_week_day` where it returns. -/
def weekDayVal (zn : Zone) (d : VDT) : Int :=
  if toSecs zn d < 0 then -1 else i16 (if (mktime zn (vdtToTm d)).2.wday = 0 then 7 else (mktime zn (vdtToTm d)).2.wday)

/-- The value of `vt_datetime_find_year_day` where it returns. -/
def yearDayVal (zn : Zone) (d : VDT) : Int :=
  if toSecs zn d < 0 then -1 else i16 ((mktime zn (vdtToTm d)).2.yday + 1)

theorem findWeekDay_out (E : Env) (zn : Zone) (d : VDT) :
    findWeekDay E zn d = if E.debug = true ∧ toSecs zn d < 0 then .ub else .ok (weekDayVal zn d) := by
  unfold findWeekDay weekDayVal invalidMessage
  change (if toSecs zn d < 0 then _ else _) = _
  by_cases h : toSecs zn d < 0
  · cases hd : E.debug with
    | true => rw [if_pos h, if_pos (c := true = true ∧ toSecs zn d < 0) ⟨rfl, h⟩]; rfl
    | false => rw [if_pos h, if_neg (c := false = true ∧ toSecs zn d < 0) (by simp), if_pos h]; rfl
  · rw [if_neg h, if_neg (c := E.debug = true ∧ toSecs zn d < 0) (fun g => h g.2), if_neg h]; rfl

theorem findYearDay_out (E : Env) (zn : Zone) (d : VDT) :
    findYearDay E zn d = if E.debug = true ∧ toSecs zn d < 0 then .ub else .ok (yearDayVal zn d) := by
  unfold findYearDay yearDayVal invalidMessage
  change (if toSecs zn d < 0 then _ else _) = _
  by_cases h : toSecs zn d < 0
  · cases hd : E.debug with
    | true => rw [if_pos h, if_pos (c := true = true ∧ toSecs zn d < 0) ⟨rfl, h⟩]; rfl
    | false => rw [if_pos h, if_neg (c := false = true ∧ toSecs zn d < 0) (by simp), if_pos h]; rfl
  · rw [if_neg h, if_neg (c := E.debug = true ∧ toSecs zn d < 0) (fun g => h g.2), if_neg h]; rfl

theorem findWeekDay_def (zn : Zone) (d : VDT) : weekDayVal zn d = if toSecs zn d < 0 then -1 else
    i16 (if (mktime zn (vdtToTm d)).2.wday = 0 then 7 else (mktime zn (vdtToTm d)).2.wday) := rfl

theorem findYearDay_def (zn : Zone) (d : VDT) : yearDayVal zn d = if toSecs zn d < 0 then -1 else
    i16 ((mktime zn (vdtToTm d)).2.yday + 1) := rfl

theorem findWeekDay_eq (zn : Zone) (d : VDT) :
    (toSecs zn d < 0 ∧ weekDayVal zn d = -1) ∨ (0 ≤ toSecs zn d ∧ 1 ≤ weekDayVal zn d ∧ weekDayVal zn d ≤ 7) := by
  have hb := brokenDown_ranges (zn.offset (tmSecs zn.std (vdtToTm d))) (tmSecs zn.std (vdtToTm d))
  rw [findWeekDay_def]
  change 0 ≤ (mktime zn (vdtToTm d)).2.wday ∧ (mktime zn (vdtToTm d)).2.wday ≤ 6 ∧ _ at hb
  by_cases h0 : toSecs zn d < 0
  · left; exact ⟨h0, if_pos h0⟩
  · right
    rw [if_neg h0]
    refine ⟨by omega, ?_⟩
    split
    · rw [i16_id (by unfold Is16; omega)]; omega
    · rw [i16_id (by unfold Is16; omega)]; omega

theorem findYearDay_eq (zn : Zone) (d : VDT) :
    (toSecs zn d < 0 ∧ yearDayVal zn d = -1) ∨ (0 ≤ toSecs zn d ∧ 1 ≤ yearDayVal zn d ∧ yearDayVal zn d ≤ 366) := by
  have hb := brokenDown_ranges (zn.offset (tmSecs zn.std (vdtToTm d))) (tmSecs zn.std (vdtToTm d))
  rw [findYearDay_def]
  change _ ∧ _ ∧ 0 ≤ (mktime zn (vdtToTm d)).2.yday ∧ (mktime zn (vdtToTm d)).2.yday ≤ 365 at hb
  by_cases h0 : toSecs zn d < 0
  · left; exact ⟨h0, if_pos h0⟩
  · right
    rw [if_neg h0]
    refine ⟨by omega, ?_⟩
    rw [i16_id (by unfold Is16; omega)]; omega

/-- The seconds value depends on date and time of day only. -/
theorem toSecs_congr (zn : Zone) {d e : VDT} (h : (d.year, d.month, d.mday, d.hour, d.minute, d.second) =
    (e.year, e.month, e.mday, e.hour, e.minute, e.second)) : toSecs zn d = toSecs zn e := by
  simp only [Prod.mk.injEq] at h
  obtain ⟨h1, h2, h3, h4, h5, h6⟩ := h
  simp only [toSecs, mktime, tmSecs, vdtToTm, h1, h2, h3, h4, h5, h6]

/-- The struct that `vt_datetime_create` returns, if it returns. -/
def fillVal (zn : Zone) (d : VDT) : VDT :=
  { d with wday := if d.wday < 0 then weekDayVal zn d else d.wday, yday := if d.yday < 0 then yearDayVal zn d else d.yday }

theorem fillIn_out (E : Env) (zn : Zone) (d : VDT) :
    fillIn E zn d = if E.debug = true ∧ (d.wday < 0 ∨ d.yday < 0) ∧ toSecs zn d < 0 then .ub else .ok (fillVal zn d) := by
  have e : ∀ w, toSecs zn { d with wday := w } = toSecs zn d := fun w => toSecs_congr zn rfl
  have ey : ∀ w, yearDayVal zn { d with wday := w } = yearDayVal zn d := by
    intro w
    have hm : (mktime zn (vdtToTm { d with wday := w })).2 = (mktime zn (vdtToTm d)).2 :=
      congrArg (fun s => brokenDown (zn.offset s) s) (e w)
    unfold yearDayVal
    rw [e, hm]
  unfold fillIn fillVal
  by_cases h1 : d.wday < 0 <;> by_cases h2 : d.yday < 0 <;> by_cases h3 : E.debug = true ∧ toSecs zn d < 0
  all_goals simp only [h1, h2, if_true, if_false, findWeekDay_out, findYearDay_out, e, ey, h3, bind_ok, bind_ub, true_and, false_and, or_true, true_or,
    or_false, and_true, and_self, and_false]

theorem fillVal_fields (zn : Zone) (d : VDT) :
    (fillVal zn d).year = d.year ∧ (fillVal zn d).month = d.month ∧ (fillVal zn d).mday = d.mday ∧ (fillVal zn d).hour = d.hour ∧
    (fillVal zn d).minute = d.minute ∧ (fillVal zn d).second = d.second ∧ (0 ≤ d.wday → (fillVal zn d).wday = d.wday) ∧
    (0 ≤ d.yday → (fillVal zn d).yday = d.yday) := by
  refine ⟨rfl, rfl, rfl, rfl, rfl, rfl, fun h => if_neg (by omega), fun h => if_neg (by omega)⟩

theorem create_val {E : Env} {zn : Zone} {year month mday hour minute second wday yday : Int} {r : VDT}
    (hr : DT.create E zn year month mday hour minute second wday yday = .ok r) :
    r = fillVal zn (createBase year month mday hour minute second wday yday) := by
  unfold DT.create at hr
  rw [fillIn_out] at hr
  split at hr
  · cases hr
  · cases hr; rfl

/-- Clamping to a range. -/
def clamp (lo hi x : Int) : Int := max lo (min hi x)

theorem clamp_bounds {lo hi x : Int} (h : lo ≤ hi) : lo ≤ clamp lo hi x ∧ clamp lo hi x ≤ hi := by unfold clamp; omega

theorem clamp_id {lo hi x : Int} (h1 : lo ≤ x) (h2 : x ≤ hi) : clamp lo hi x = x := by unfold clamp; omega

/-- **C51.** Fields out of range are moved to the nearest end of the documented range (year: 1900 for negative years; day of the month: the
end of the month as the code counts it), fields in range are kept; the same for any week day and day of year given. -/
theorem C51_fields (E : Env) (zn : Zone) (year month mday hour minute second wday yday : Int) (r : VDT)
    (hr : DT.create E zn year month mday hour minute second wday yday = .ok r) :
    r.year = (if year < 0 then 1900 else year) ∧ r.month = clamp 1 12 month ∧
    (1 ≤ mday ∧ mday ≤ 31 → r.mday = mday) ∧ (mday < 1 → r.mday = 1) ∧
    (31 < mday → r.mday = findDaysInMonth ⟨year, month, 0, 0, 0, 0, 0, 0⟩) ∧
    r.hour = clamp 0 23 hour ∧ r.minute = clamp 0 59 minute ∧ r.second = clamp 0 60 second ∧
    (1 ≤ wday ∧ wday ≤ 7 → r.wday = wday) ∧ (1 ≤ yday ∧ yday ≤ 366 → r.yday = yday) := by
  obtain ⟨g1, g2, g3, g4, g5, g6, g7, g8⟩ := fillVal_fields zn (createBase year month mday hour minute second wday yday)
  rw [← create_val hr] at *
  rw [g1, g2, g3, g4, g5, g6]
  simp only [createBase, minYear, clamp] at g7 g8 ⊢
  refine ⟨trivial, ?_, ?_, ?_, ?_, ?_, ?_, ?_, ?_, ?_⟩
  · (repeat' split) <;> omega
  · intro h; rw [if_neg (by omega), if_neg (by omega)]
  · intro h; rw [if_pos (by omega)]
  · intro h; rw [if_neg (by omega), if_pos (by omega)]
  · (repeat' split) <;> omega
  · (repeat' split) <;> omega
  · (repeat' split) <;> omega
  · intro h
    rw [if_neg (by omega)] at g7
    exact g7 (by omega)
  · intro h
    rw [if_neg (by omega)] at g8
    exact g8 (by omega)

/-- Week day and day of year that were not given in range are computed from the rest. -/
theorem create_computed (E : Env) (zn : Zone) (year month mday hour minute second wday yday : Int) (r : VDT)
    (hr : DT.create E zn year month mday hour minute second wday yday = .ok r) :
    (¬ (1 ≤ wday ∧ wday ≤ 7) → r.wday = weekDayVal zn r) ∧ (¬ (1 ≤ yday ∧ yday ≤ 366) → r.yday = yearDayVal zn r) := by
  have key : ∀ d e : VDT, (d.year, d.month, d.mday, d.hour, d.minute, d.second) = (e.year, e.month, e.mday, e.hour, e.minute, e.second) →
      weekDayVal zn d = weekDayVal zn e ∧ yearDayVal zn d = yearDayVal zn e := by
    intro d e h
    have ht := toSecs_congr zn h
    have hm : (mktime zn (vdtToTm d)).2 = (mktime zn (vdtToTm e)).2 := congrArg (fun s => brokenDown (zn.offset s) s) ht
    unfold weekDayVal yearDayVal
    rw [ht, hm]
    exact ⟨rfl, rfl⟩
  rw [create_val hr]
  constructor
  · intro h
    have e : (createBase year month mday hour minute second wday yday).wday = -1 := if_pos (by omega)
    refine Eq.trans (if_pos (by rw [e]; omega)) (key _ _ rfl).1
  · intro h
    have e : (createBase year month mday hour minute second wday yday).yday = -1 := if_pos (by omega)
    refine Eq.trans (if_pos (by rw [e]; omega)) (key _ _ rfl).2

/-- **C51, full claim except times before 1970.** Every field of the result is in its documented range; week day and day of year provided
the moment is not before 1970 UTC or they were given in range. -/
theorem C51_ranges_partial (E : Env) (zn : Zone) (year month mday hour minute second wday yday : Int) (r : VDT)
    (hr : DT.create E zn year month mday hour minute second wday yday = .ok r) :
    (1 ≤ r.month ∧ r.month ≤ 12) ∧ (1 ≤ r.mday ∧ r.mday ≤ 31) ∧ (0 ≤ r.hour ∧ r.hour ≤ 23) ∧ (0 ≤ r.minute ∧ r.minute ≤ 59) ∧
    (0 ≤ r.second ∧ r.second ≤ 60) ∧ 0 ≤ r.year ∧
    ((1 ≤ wday ∧ wday ≤ 7) ∨ 0 ≤ toSecs zn r → 1 ≤ r.wday ∧ r.wday ≤ 7) ∧
    ((1 ≤ yday ∧ yday ≤ 366) ∨ 0 ≤ toSecs zn r → 1 ≤ r.yday ∧ r.yday ≤ 366) := by
  obtain ⟨f1, f2, f3, f4, f5, f6, f7, f8, f9, f10⟩ := C51_fields E zn year month mday hour minute second wday yday r hr
  obtain ⟨c1, c2⟩ := create_computed E zn year month mday hour minute second wday yday r hr
  have hb := findDaysInMonth_bounds ⟨year, month, 0, 0, 0, 0, 0, 0⟩
  have w1 := findWeekDay_eq zn r
  have w2 := findYearDay_eq zn r
  refine ⟨by rw [f2]; exact clamp_bounds (by omega), ?_, by rw [f6]; exact clamp_bounds (by omega), by rw [f7]; exact clamp_bounds (by omega),
    by rw [f8]; exact clamp_bounds (by omega), ?_, ?_, ?_⟩
  all_goals clear f2 f6 f7 f8
  · by_cases h1 : mday < 1
    · rw [f4 h1]; omega
    · by_cases h2 : 31 < mday
      · rw [f5 h2]; omega
      · rw [f3 (by omega)]; omega
  · rw [f1]; split <;> omega
  · intro h
    by_cases hw : 1 ≤ wday ∧ wday ≤ 7
    · rw [f9 hw]; exact hw
    · rw [c1 hw]; omega
  · intro h
    by_cases hw : 1 ≤ yday ∧ yday ≤ 366
    · rw [f10 hw]; exact hw
    · rw [c2 hw]; omega

/-- What `vt_datetime_create` keeps of a valid date. -/
theorem create_holds {E : Env} {zn : Zone} {c : Civil} (hv : c.Valid) (h0 : 0 ≤ c.year) {wday yday : Int} {r : VDT}
    (hr : DT.create E zn c.year c.month c.day c.hour c.minute c.second wday yday = .ok r) : Holds r c := by
  obtain ⟨f1, f2, f3, f4, f5, f6, f7, f8, -, -⟩ := C51_fields E zn c.year c.month c.day c.hour c.minute c.second wday yday r hr
  have hml := monthLength_bounds c.year c.month
  obtain ⟨h2, h3, h4, h5, h6, h7, h8⟩ := hv
  refine ⟨by rw [f1, if_neg (by omega)], ?_, f3 (by omega), ?_, ?_, ?_⟩
  · rw [f2]; exact clamp_id (by omega) (by omega)
  · rw [f6]; exact clamp_id (by omega) (by omega)
  · rw [f7]; exact clamp_id (by omega) (by omega)
  · rw [f8]; exact clamp_id (by omega) (by omega)

/-- The fields of the first struct of `vt_datetime_create`. -/
theorem createBase_holds (c : Civil) (hv : c.Valid) (h0 : 0 ≤ c.year) (wday yday : Int) :
    Holds (createBase c.year c.month c.day c.hour c.minute c.second wday yday) c := by
  have hml := monthLength_bounds c.year c.month
  obtain ⟨h2, h3, h4, h5, h6, h7, h8⟩ := hv
  unfold createBase
  refine ⟨if_neg (by omega), ?_, ?_, ?_, ?_, ?_⟩
  all_goals
    simp only
    rw [if_neg (by omega), if_neg (by omega)]

/-- **C51, refuted before 1970.** `vt_datetime_create` of a valid date returns, except in debug builds for a date before 1970 UTC whose week day or
day of the year is left to be filled in: there a message is printed whose argument is missing. -/
theorem C51_returns_partial (E : Env) (zn : Zone) (c : Civil) (hv : c.Valid) (h0 : 0 < c.year) (wday yday : Int) :
    (E.debug = true ∧ c.secs < zn.std ∧ ¬ ((1 ≤ wday ∧ wday ≤ 7) ∧ (1 ≤ yday ∧ yday ≤ 366)) →
      DT.create E zn c.year c.month c.day c.hour c.minute c.second wday yday = .ub) ∧
    (¬ (E.debug = true ∧ c.secs < zn.std ∧ ¬ ((1 ≤ wday ∧ wday ≤ 7) ∧ (1 ≤ yday ∧ yday ≤ 366))) →
      ∃ r, DT.create E zn c.year c.month c.day c.hour c.minute c.second wday yday = .ok r ∧ Holds r c) := by
  have ht := C49_to_secs zn (createBase_holds c hv (by omega) wday yday) hv (by omega)
  have hw : (createBase c.year c.month c.day c.hour c.minute c.second wday yday).wday < 0 ↔ ¬ (1 ≤ wday ∧ wday ≤ 7) := by
    change (if _ then _ else _) < _ ↔ _
    split <;> omega
  have hy : (createBase c.year c.month c.day c.hour c.minute c.second wday yday).yday < 0 ↔ ¬ (1 ≤ yday ∧ yday ≤ 366) := by
    change (if _ then _ else _) < _ ↔ _
    split <;> omega
  have e := fillIn_out E zn (createBase c.year c.month c.day c.hour c.minute c.second wday yday)
  simp only [ht, hw, hy] at e
  constructor
  · rintro ⟨g1, g2, g3⟩
    exact e.trans (if_pos ⟨g1, by omega, by omega⟩)
  · intro g
    have hr := e.trans (if_neg (fun f => g ⟨f.1, by omega, by omega⟩))
    exact ⟨_, hr, create_holds hv (by omega) hr⟩

/-- Missing week day and day of year are those of the moment `c'` that clocks in the zone show when standard time is `c`. -/
theorem create_auto (E : Env) (zn : Zone) (c c' : Civil) (hv : c.Valid) (hv' : c'.Valid) (h0 : 0 < c.year) (hs : zn.std ≤ c.secs)
    (he : c'.secs = c.secs - zn.std + zn.offset (c.secs - zn.std)) :
    DT.create E zn c.year c.month c.day c.hour c.minute c.second (-1) (-1) =
      .ok ⟨c.year, c.month, c.day, c.hour, c.minute, c.second, c'.weekDay, c'.yearDay⟩ := by
  obtain ⟨r, hr, hh⟩ := (C51_returns_partial E zn c hv h0 (-1) (-1)).2 (by omega)
  rw [hr]
  obtain ⟨c1, c2⟩ := create_computed E zn c.year c.month c.day c.hour c.minute c.second (-1) (-1) r hr
  have hyd := yearDay_le hv'
  have hyl := yearLength_bounds c'.year
  have ht := C49_to_secs zn hh hv (by omega)
  have hm : tmSecs zn.std (vdtToTm r) = c.secs - zn.std := ht
  have hbd := brokenDown_eq hv' (zn.offset (c.secs - zn.std))
  rw [show c'.secs - zn.offset (c.secs - zn.std) = c.secs - zn.std by omega] at hbd
  have hw : r.wday = c'.weekDay := by
    rw [c1 (by omega)]
    rw [findWeekDay_def, if_neg (by omega)]
    simp only [mktime, hm, hbd]
    unfold Civil.weekDay
    split
    · rw [i16_id (by unfold Is16; omega)]; omega
    · rw [i16_id (by unfold Is16; omega)]; omega
  have hy : r.yday = c'.yearDay := by
    rw [c2 (by omega)]
    rw [findYearDay_def, if_neg (by omega)]
    simp only [mktime, hm, hbd]
    rw [i16_id (by unfold Is16; omega)]; omega
  obtain ⟨e1, e2, e3, e4, e5, e6⟩ := hh
  clear hr c1 c2 ht hm hbd
  obtain ⟨r1, r2, r3, r4, r5, r6, r7, r8⟩ := r
  simp only at e1 e2 e3 e4 e5 e6 hw hy
  rw [e1, e2, e3, e4, e5, e6, hw, hy]

/-- **C51.** Missing week day and day of year are filled in correctly for valid dates from 1970 UTC on (`off`
could be so large that these begin earlier in the zone; the year must be positive). -/
theorem C51_auto_fill (E : Env) (off : Int) (c : Civil) (hv : c.Valid) (h0 : 0 < c.year) (hs : off ≤ c.secs) :
    DT.create E off c.year c.month c.day c.hour c.minute c.second (-1) (-1) =
      .ok ⟨c.year, c.month, c.day, c.hour, c.minute, c.second, c.weekDay, c.yearDay⟩ :=
  create_auto E off c c hv hv h0 hs (by simp only; omega)

/-- **C51, disagreement.** For every valid date before 1970 UTC the week day and the day of the year are -1 in release builds. -/
theorem C51_before_1970_wrong (E : Env) (hE : E.debug = false) (zn : Zone) (c : Civil) (hv : c.Valid) (h0 : 0 < c.year) (hs : c.secs < zn.std) :
    DT.create E zn c.year c.month c.day c.hour c.minute c.second (-1) (-1) =
      .ok ⟨c.year, c.month, c.day, c.hour, c.minute, c.second, -1, -1⟩ := by
  obtain ⟨r, hr, hh⟩ := (C51_returns_partial E zn c hv h0 (-1) (-1)).2 (by rw [hE]; simp)
  rw [hr]
  obtain ⟨c1, c2⟩ := create_computed E zn c.year c.month c.day c.hour c.minute c.second (-1) (-1) r hr
  have ht := C49_to_secs zn hh hv (by omega)
  have hw : r.wday = -1 := by rw [c1 (by omega), findWeekDay_def, if_pos (by omega)]
  have hy : r.yday = -1 := by rw [c2 (by omega), findYearDay_def, if_pos (by omega)]
  obtain ⟨e1, e2, e3, e4, e5, e6⟩ := hh
  clear hr c1 c2 ht
  obtain ⟨r1, r2, r3, r4, r5, r6, r7, r8⟩ := r
  simp only at e1 e2 e3 e4 e5 e6 hw hy
  rw [e1, e2, e3, e4, e5, e6, hw, hy]

/-- Example: the first steps on the moon. -/
example : (⟨1969, 7, 20, 20, 17, 40⟩ : Civil).Valid ∧ (⟨1969, 7, 20, 20, 17, 40⟩ : Civil).secs < 0 ∧
    DT.create exE 0 1969 7 20 20 17 40 (-1) (-1) = .ub ∧ DT.create exE 0 1969 7 20 20 17 40 7 201 = .ok ⟨1969, 7, 20, 20, 17, 40, 7, 201⟩ ∧
    DT.create { exE with debug := false } 0 1969 7 20 20 17 40 (-1) (-1) = .ok ⟨1969, 7, 20, 20, 17, 40, -1, -1⟩ := by decide +kernel

/-- Example: all fields out of range, in UTC; and a valid date completed. -/
example : DT.create exE 0 2023 13 99 99 99 99 0 400 = .ok ⟨2023, 12, 31, 23, 59, 60, 1, 1⟩ ∧
    DT.create exE 0 2024 12 31 1 2 3 (-1) (-1) = .ok ⟨2024, 12, 31, 1, 2, 3, 2, 366⟩ := by decide +kernel

/-! ### C52 -/

/-- **C52.** The differences in larger units are the difference in seconds divided, rounded toward zero. -/
theorem C52_units (zn : Zone) (a b : VDT) :
    diffSecs zn a b = toSecs zn a - toSecs zn b ∧
    diffMinutes zn a b = (diffSecs zn a b).tdiv 60 ∧
    diffHours zn a b = (diffSecs zn a b).tdiv 3600 ∧
    diffDays zn a b = (diffSecs zn a b).tdiv 86400 := by
  refine ⟨rfl, rfl, ?_, ?_⟩
  · unfold diffHours diffMinutes
    generalize diffSecs zn a b = x
    rcases lt_or_ge x 0 with h | h
    · obtain ⟨n, rfl⟩ : ∃ n : Int, x = -n := ⟨-x, by omega⟩
      simp only [Int.neg_tdiv, Int.tdiv_eq_ediv_of_nonneg (show (0 : Int) ≤ n by omega)]
      rw [Int.tdiv_eq_ediv_of_nonneg (by omega)]
      omega
    · rw [Int.tdiv_eq_ediv_of_nonneg h, Int.tdiv_eq_ediv_of_nonneg (by omega), Int.tdiv_eq_ediv_of_nonneg h]
      omega
  · unfold diffDays diffHours diffMinutes
    generalize diffSecs zn a b = x
    rcases lt_or_ge x 0 with h | h
    · obtain ⟨n, rfl⟩ : ∃ n : Int, x = -n := ⟨-x, by omega⟩
      simp only [Int.neg_tdiv, Int.tdiv_eq_ediv_of_nonneg (show (0 : Int) ≤ n by omega)]
      rw [Int.tdiv_eq_ediv_of_nonneg (show (0 : Int) ≤ n / 60 by omega), Int.tdiv_eq_ediv_of_nonneg (by omega)]
      omega
    · rw [Int.tdiv_eq_ediv_of_nonneg h, Int.tdiv_eq_ediv_of_nonneg (show (0 : Int) ≤ x / 60 by omega),
        Int.tdiv_eq_ediv_of_nonneg (by omega), Int.tdiv_eq_ediv_of_nonneg h]
      omega

/-- **C52.** All differences change sign when the arguments are swapped. -/
theorem C52_antisymmetric (zn : Zone) (a b : VDT) :
    diffSecs zn b a = -diffSecs zn a b ∧ diffMinutes zn b a = -diffMinutes zn a b ∧
    diffHours zn b a = -diffHours zn a b ∧ diffDays zn b a = -diffDays zn a b := by
  have h : diffSecs zn b a = -diffSecs zn a b := by unfold diffSecs; omega
  refine ⟨h, ?_, ?_, ?_⟩ <;> simp only [diffDays, diffHours, diffMinutes, h, Int.neg_tdiv]

/-- **C52.** The difference in seconds of valid times is the true one. -/
theorem C52_diff_exact (zn : Zone) {d e : VDT} {a b : Civil} (hd : Holds d a) (he : Holds e b) (ha : a.Valid) (hb : b.Valid)
    (ha0 : a.year ≠ 0) (hb0 : b.year ≠ 0) : diffSecs zn d e = a.secs - b.secs := by
  unfold diffSecs
  rw [C49_to_secs zn hd ha ha0, C49_to_secs zn he hb hb0]
  omega

/-- Adding days, hours, minutes and seconds adds to the seconds value. -/
theorem tmSecs_add (off : Int) (t : Tm) (a b c e : Int) :
    tmSecs off ⟨t.year + 0, t.mon + 0, t.mday + a, t.hour + b, t.min + c, t.sec + e, t.wday, t.yday⟩ =
      tmSecs off t + (a * 86400 + b * 3600 + c * 60 + e) := by
  unfold tmSecs dayNumber
  simp only [Int.add_zero]
  omega

/-- **C52.** Adding the difference (written in days, hours, minutes and seconds of any sign) to the one time gives the other, whatever
the order of the two. -/
theorem C52_add_difference (off : Int) {d e : VDT} {a : Civil} (hd : Holds d a) (ha : a.Valid)
    (ha0 : a.year ≠ 0) (hy : Is16 a.year) (delta : VDT) (h0 : delta.year = 0 ∧ delta.month = 0)
    (h : delta.mday * 86400 + delta.hour * 3600 + delta.minute * 60 + delta.second = diffSecs off d e) :
    op off e delta = ⟨a.year, a.month, a.day, a.hour, a.minute, a.second, a.weekDay, a.yearDay⟩ := by
  have hr := C49_round_trip off hd ha ha0 hy
  have hs : tmSecs off ⟨(vdtToTm e).year + delta.year, (vdtToTm e).mon + delta.month, (vdtToTm e).mday + delta.mday,
      (vdtToTm e).hour + delta.hour, (vdtToTm e).min + delta.minute, (vdtToTm e).sec + delta.second, (vdtToTm e).wday, (vdtToTm e).yday⟩
      = toSecs off d := by
    rw [h0.1, h0.2, tmSecs_add, h]
    unfold diffSecs
    have : tmSecs off (vdtToTm e) = toSecs off e := rfl
    omega
  simp only [op, mktime, hs]
  simp only [fromSecs, localtime] at hr
  split at hr
  · simpa using hr
  · simp at hr

/-- Example: 100 seconds before New Year 2001. -/
example : diffSecs 0 ⟨2000, 12, 31, 23, 58, 20, 0, 0⟩ ⟨2001, 1, 1, 0, 0, 0, 0, 0⟩ = -100 ∧
    diffMinutes 0 ⟨2000, 12, 31, 23, 58, 20, 0, 0⟩ ⟨2001, 1, 1, 0, 0, 0, 0, 0⟩ = -1 ∧
    op 0 ⟨2001, 1, 1, 0, 0, 0, 0, 0⟩ ⟨0, 0, 0, 0, 0, -100, 0, 0⟩ = ⟨2000, 12, 31, 23, 58, 20, 7, 366⟩ := by decide +kernel

end Vita
