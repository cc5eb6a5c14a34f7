import Verif.Tests.Basic
import Verif.Model.DateDiff
/-!
# tests/src/test_datetime.c

In a time zone without summer time; the two texts of the current time, which the test prints, are left out.
-/

namespace Vita.Tests
open DT

/-- The time zone. -/
def zn : Zone := 0

/-- `(struct VitaDateTime) {.year = y, .month = m, .month_day = d}`. -/
def day (y m d : Int) : VDT := ⟨y, m, d, 0, 0, 0, 0, 0⟩

/-- Date and time as expected. -/
def hasDate (d : VDT) (year month mday hour minute second : Int) : Out Unit :=
  check (d.year == year && d.month == month && d.mday == mday && d.hour == hour && d.minute == minute && d.second == second)

/-- test_datetime.c:13-53. -/
def dateText : Out Unit := do
  let buf : Mem := List.replicate 26 (some 0)
  let d ← create E zn 2023 1 1 11 24 56 (-1) (-1)
  hasDate d 2023 1 1 11 24 56
  check (d.wday == 7)
  check (d.yday == 1)
  let buf ← toText E d buf 26
  sameZ buf "2023-01-01 11:24:56"
  let buf ← toTextIso E d buf 26
  sameZ buf "20230101T112456"
  let buf ← toTextIsoExt E d buf 26
  sameZ buf "2023-01-01T11:24:56"
  let buf ← vtMemset buf 0 0 26
  let buf ← toTextPretty E d buf 26
  sameZ buf "Sun Jan  1 11:24:56 2023"
  check ((← findWeekDay E zn (day 2023 5 15)) == 1)
  check ((← findWeekDay E zn (day 2023 5 16)) == 2)
  check ((← findWeekDay E zn (day 2023 5 17)) == 3)
  check ((← findWeekDay E zn (day 2023 5 18)) == 4)
  check ((← findWeekDay E zn (day 2023 5 19)) == 5)
  check ((← findWeekDay E zn (day 2023 5 20)) == 6)
  check ((← findWeekDay E zn (day 2023 5 21)) == 7)
  check ((← findYearDay E zn d) == 1)
  check ((← findWeekDay E zn d) == 7)
  check (findDaysInMonth d == 31)
  check (findDaysInYear d == 365)
  check (isLeapYear d == false)

example : dateText = .ok () := by decide +kernel

/-- test_datetime.c:55-86. -/
def dateFromText : Out Unit := do
  hasDate (← fromText (c "2023-05-19 20:31:01")) 2023 5 19 20 31 1
  hasDate (← fromTextIso (c "20230519T203101")) 2023 5 19 20 31 1
  hasDate (← fromTextIsoExt (c "2023-05-19T20:31:01")) 2023 5 19 20 31 1
  check ((← isValidText (c "2023-12-27 23:12:02")) == true)
  check ((← isValidIso (c "20231227T231202")) == true)
  check ((← isValidIsoExt (c "2023-12-27T23:12:02")) == true)
  check ((← isValidText (c "2023-13-27 23:1 :02")) == false)
  check ((← isValidText (c "2023-1d-27 22:12:02")) == false)
  check ((← isValidText (c "2023-27 22:12:02   ")) == false)
  check ((← isValidText (c "a023-27 22:12:02   ")) == false)

example : dateFromText = .ok () := by decide +kernel

/-- test_datetime.c:88-109. -/
def dateArithmetic : Out Unit := do
  let buf : Mem := List.replicate 26 (some 0)
  let d2 ← fromText (c "2023-05-19 20:31:01")
  let n ← fromSecs zn (toSecs zn d2 + 6 * 86400)
  let buf ← toText E n buf 26
  sameZ buf "2023-05-25 20:31:01"
  let d3 := op zn d2 ⟨0, 0, 6, -2, 9, -1, 0, 0⟩
  let buf ← toText E d3 buf 26
  sameZ buf "2023-05-25 18:40:00"
  let d4 ← fromText (c "2023-05-25 18:40:00")
  let d5 ← fromText (c "2023-05-19 20:31:01")
  check (diffDays zn d3 d2 == 5)
  let x := diff zn d4 d5
  check (x.second == 58)
  check (x.minute == 8)
  check (x.hour == 22)
  check (x.mday == 5)

example : dateArithmetic = .ok () := by decide +kernel

end Vita.Tests
