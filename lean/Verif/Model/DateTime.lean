import Verif.Base.CStr
import Verif.Model.Conv
/-!
# Model of src/vita/time/datetime.c

Numbers of the C types `int` and `int16_t` are integers, with the conversion to `int16_t` written out.  `mktime` and
`localtime` are modelled for a time zone whose standard time has a fixed offset and which may have summer time; they are the C
library's part and belong to the trusted base.
-/

namespace Vita
namespace DT

/-- Conversion to `int16_t` (wraps on every compiler in use; implementation-defined in ISO C). -/
def i16 (x : Int) : Int := (x + 2 ^ 15) % 2 ^ 16 - 2 ^ 15

/-- The values of `int16_t`. -/
def Is16 (x : Int) : Prop := -2 ^ 15 ≤ x ∧ x < 2 ^ 15

instance (x : Int) : Decidable (Is16 x) := inferInstanceAs (Decidable (_ ∧ _))

/-- `struct VitaDateTime`, datetime.h:57-61. -/
structure VDT where
  year : Int
  month : Int
  mday : Int
  hour : Int
  minute : Int
  second : Int
  wday : Int
  yday : Int
  deriving DecidableEq, Repr

/-- All fields are values of `int16_t`. -/
def VDT.Fits (d : VDT) : Prop :=
  Is16 d.year ∧ Is16 d.month ∧ Is16 d.mday ∧ Is16 d.hour ∧ Is16 d.minute ∧ Is16 d.second ∧ Is16 d.wday ∧ Is16 d.yday

instance (d : VDT) : Decidable d.Fits := inferInstanceAs (Decidable (_ ∧ _))

/-- `struct tm` of the C library, without `tm_isdst` (always 0 here). -/
structure Tm where
  year : Int
  mon : Int
  mday : Int
  hour : Int
  min : Int
  sec : Int
  wday : Int
  yday : Int
  deriving DecidableEq, Repr

/-! ### The C library -/

/-- Leap years in the C library. -/
def leap (y : Int) : Bool := y % 4 == 0 && (y % 100 != 0 || y % 400 == 0)

/-- Days from 1970 to the beginning of a year, the POSIX formula. -/
def daysBeforeYear (y : Int) : Int := 365 * (y - 1970) + (y - 1969) / 4 - (y - 1901) / 100 + (y - 1601) / 400

/-- Days of the year before month `m` (0 = January). -/
def daysBeforeMonth (y m : Int) : Int :=
  (if m ≤ 0 then 0 else if m = 1 then 31 else if m = 2 then 59 else if m = 3 then 90 else if m = 4 then 120 else if m = 5 then 151
   else if m = 6 then 181 else if m = 7 then 212 else if m = 8 then 243 else if m = 9 then 273 else if m = 10 then 304 else 334) +
  (if leap y = true ∧ 2 ≤ m then 1 else 0)

/-- Days since 1970 of a date whose month and day may be out of range. -/
def dayNumber (y mon mday : Int) : Int :=
  daysBeforeYear (y + mon / 12) + daysBeforeMonth (y + mon / 12) (mon % 12) + mday - 1

/-- The year a day belongs to. -/
def yearOf (day : Int) : Int :=
  let y := 1970 + day * 400 / 146097
  if daysBeforeYear (y + 1) ≤ day then y + 1 else if day < daysBeforeYear y then y - 1 else y

/-- The month a day of the year (0 = January 1st) belongs to, looking from December down. -/
def monthOf (y yday : Int) : Nat → Int
  | 0 => 0
  | k + 1 => if daysBeforeMonth y (k + 1) ≤ yday then k + 1 else monthOf y yday k

/-- The seconds value of a broken-down time in a zone `off` seconds east of Greenwich: the value `mktime` returns.  POSIX formula,
extended to fields out of range. -/
def tmSecs (off : Int) (t : Tm) : Int :=
  dayNumber (t.year + 1900) t.mon t.mday * 86400 + t.hour * 3600 + t.min * 60 + t.sec - off

/-- The broken-down time of a seconds value in the zone. -/
def brokenDown (off secs : Int) : Tm :=
  let s := secs + off
  let day := s / 86400
  let r := s % 86400
  let y := yearOf day
  let yday := day - daysBeforeYear y
  let m := monthOf y yday 11
  ⟨y - 1900, m, yday - daysBeforeMonth y m + 1, r / 3600, r % 3600 / 60, r % 60, (day + 4) % 7, yday⟩

/-- A time zone: the offset of its standard time and the offset in force at each moment, in seconds east of Greenwich.  The two
differ while summer time is in force. -/
structure Zone where
  std : Int
  offset : Int → Int

/-- A zone without summer time. -/
instance : Coe Int Zone := ⟨fun off => ⟨off, fun _ => off⟩⟩

/-- Notation for such a zone in examples. -/
instance (n : Nat) : OfNat Zone n := ⟨⟨n, fun _ => n⟩⟩

/-- `mktime` of a broken-down time with `tm_isdst = 0`: the fields are understood as standard time, whether or not summer time is in
force at that moment; the result is the seconds value, and the argument normalised, that is, made the local time of that moment. -/
def mktime (zn : Zone) (t : Tm) : Int × Tm := (tmSecs zn.std t, brokenDown (zn.offset (tmSecs zn.std t)) (tmSecs zn.std t))

/-- `*localtime(&secs)`; the library returns NULL if the year does not fit an `int`, and dereferencing it is undefined. -/
def localtime (zn : Zone) (secs : Int) : Out Tm :=
  let t := brokenDown (zn.offset secs) secs
  if -2 ^ 31 ≤ t.year ∧ t.year < 2 ^ 31 then .ok t else .ub

/-! ### datetime.c -/

/-- `VT_DATETIME_MIN_YEAR_RANGE`, datetime.h:42. -/
def minYear : Int := 1900

/-- `vt_datetime_tm_to_vdt`, datetime.c:297-320. -/
def tmToVdt (t : Tm) : VDT :=
  ⟨i16 (t.year + minYear), i16 (t.mon + 1), i16 t.mday, i16 t.hour, i16 t.min, i16 t.sec, i16 (if t.wday = 0 then 7 else t.wday),
   i16 (t.yday + 1)⟩

/-- `vt_datetime_vdt_to_tm`, datetime.c:326-338. -/
def vdtToTm (d : VDT) : Tm :=
  ⟨if d.year ≠ 0 then d.year - minYear else minYear, d.month - 1, d.mday, d.hour, d.minute, d.second,
   if d.wday = 7 then 0 else d.wday, d.yday - 1⟩

/-- `VT_DEBUG_PRINTF("%s: Invalid datetime format.\n")`, datetime.c:156 and 167: the argument for `%s` is missing, so the behaviour is
undefined (ISO C 7.21.6.1) wherever the message is printed, that is, in debug builds (debug.h:32, 36). -/
def invalidMessage (E : Env) : Out Unit := if E.debug then .ub else .ok ()

/-- `vt_datetime_find_year_day`, datetime.c:152-161. -/
def findYearDay (E : Env) (zn : Zone) (d : VDT) : Out Int :=
  let (ret, t) := mktime zn (vdtToTm d)
  if ret < 0 then do
    invalidMessage E
    .ok (-1)
  else .ok (i16 (t.yday + 1))

/-- `vt_datetime_find_week_day`, datetime.c:163-172. -/
def findWeekDay (E : Env) (zn : Zone) (d : VDT) : Out Int :=
  let (ret, t) := mktime zn (vdtToTm d)
  if ret < 0 then do
    invalidMessage E
    .ok (-1)
  else .ok (i16 (if t.wday = 0 then 7 else t.wday))

/-- `vt_datetime_is_leap_year`, datetime.c:200-203 (`%` of C: sign of the dividend; the year is not negative here). -/
def isLeapYear (d : VDT) : Bool :=
  let year := if d.year < 0 then minYear else d.year
  year.tmod 4 == 0

/-- `vt_datetime_find_days_in_month`, datetime.c:174-194. -/
def findDaysInMonth (d : VDT) : Int :=
  let month := if d.month < 1 then 1 else if d.month > 12 then 12 else d.month
  let year := if d.year < 0 then minYear else d.year
  if month = 1 ∨ month = 3 ∨ month = 5 ∨ month = 7 ∨ month = 8 ∨ month = 10 ∨ month = 12 then 31
  else if month = 4 ∨ month = 6 ∨ month = 9 ∨ month = 11 then 30
  else if year > 0 ∧ isLeapYear d = true then 29 else 28

/-- `vt_datetime_find_days_in_year`, datetime.c:196-198. -/
def findDaysInYear (d : VDT) : Int := if isLeapYear d then 366 else 365

/-- The struct built at the beginning of `vt_datetime_create`, datetime.c:43-54. -/
def createBase (year month mday hour minute second wday yday : Int) : VDT where
  year := if year < 0 then minYear else year
  month := if month < 1 then 1 else if month > 12 then 12 else month
  mday := if mday < 1 then 1 else if mday > 31 then findDaysInMonth ⟨year, month, 0, 0, 0, 0, 0, 0⟩ else mday
  hour := if hour < 0 then 0 else if hour > 23 then 23 else hour
  minute := if minute < 0 then 0 else if minute > 59 then 59 else minute
  second := if second < 0 then 0 else if second > 60 then 60 else second
  wday := if wday < 1 ∨ wday > 7 then -1 else wday
  yday := if yday < 1 ∨ yday > 366 then -1 else yday

/-- The rest of `vt_datetime_create`, datetime.c:56-66. -/
def fillIn (E : Env) (zn : Zone) (d : VDT) : Out VDT := do
  let wday ← if d.wday < 0 then findWeekDay E zn d else .ok d.wday
  let d := { d with wday := wday }
  let yday ← if d.yday < 0 then findYearDay E zn d else .ok d.yday
  .ok { d with yday := yday }

/-- `vt_datetime_create`, datetime.c:38-67. -/
def create (E : Env) (zn : Zone) (year month mday hour minute second wday yday : Int) : Out VDT :=
  fillIn E zn (createBase year month mday hour minute second wday yday)

/-- `vt_datetime_to_secs`, datetime.c:229-232.  `mktime` writes to an object defined `const` there, which ISO C 6.7.3 leaves undefined; the
model has what compilers make of it, since the object is not used again. -/
def toSecs (zn : Zone) (d : VDT) : Int := (mktime zn (vdtToTm d)).1

/-- `vt_datetime_from_secs`, datetime.c:234-237. -/
def fromSecs (zn : Zone) (secs : Int) : Out VDT := do
  let t ← localtime zn secs
  .ok (tmToVdt t)

/-- `vt_datetime_op`, datetime.c:239-254. -/
def op (zn : Zone) (d delta : VDT) : VDT :=
  let t := vdtToTm d
  let t : Tm := ⟨t.year + delta.year, t.mon + delta.month, t.mday + delta.mday, t.hour + delta.hour, t.min + delta.minute,
    t.sec + delta.second, t.wday, t.yday⟩
  tmToVdt (mktime zn t).2

/-- `vt_datetime_diff_secs`, datetime.c:256-258. -/
def diffSecs (zn : Zone) (a b : VDT) : Int := toSecs zn a - toSecs zn b
/-- `vt_datetime_diff_minutes`, datetime.c:260-262 (division of C: toward zero). -/
def diffMinutes (zn : Zone) (a b : VDT) : Int := (diffSecs zn a b).tdiv 60
/-- `vt_datetime_diff_hours`, datetime.c:264-266. -/
def diffHours (zn : Zone) (a b : VDT) : Int := (diffMinutes zn a b).tdiv 60
/-- `vt_datetime_diff_days`, datetime.c:268-270. -/
def diffDays (zn : Zone) (a b : VDT) : Int := (diffHours zn a b).tdiv 24

/-! ### Text -/

/-- Two digits of a number below 100. -/
def two (x : Int) : List UInt8 := [UInt8.ofNat (48 + x.toNat / 10), UInt8.ofNat (48 + x.toNat % 10)]

/-- A piece of a `strftime` format. -/
inductive Fmt
  | Y | m | d | H | M | S
  | lit (c : UInt8)
  deriving DecidableEq, Repr

/-- "%Y-%m-%d %H:%M:%S", datetime.c:73. -/
def fmtText : List Fmt := [.Y, .lit 45, .m, .lit 45, .d, .lit 32, .H, .lit 58, .M, .lit 58, .S]
/-- "%Y%m%dT%H%M%S", datetime.c:80. -/
def fmtIso : List Fmt := [.Y, .m, .d, .lit 84, .H, .M, .S]
/-- "%Y-%m-%dT%H:%M:%S", datetime.c:87. -/
def fmtIsoExt : List Fmt := [.Y, .lit 45, .m, .lit 45, .d, .lit 84, .H, .lit 58, .M, .lit 58, .S]

/-- One piece of `strftime`; a field out of its normal range gives unspecified characters (ISO C 7.27.3.5), here: undefined.  The
year is not filled up with zeros, as in glibc; ISO C says only `as a decimal number`. -/
def fmtPiece (t : Tm) : Fmt → Out (List UInt8)
  | .Y => .ok (Conv.printD (t.year + 1900))
  | .m => if 0 ≤ t.mon ∧ t.mon ≤ 11 then .ok (two (t.mon + 1)) else .ub
  | .d => if 1 ≤ t.mday ∧ t.mday ≤ 31 then .ok (two t.mday) else .ub
  | .H => if 0 ≤ t.hour ∧ t.hour ≤ 23 then .ok (two t.hour) else .ub
  | .M => if 0 ≤ t.min ∧ t.min ≤ 59 then .ok (two t.min) else .ub
  | .S => if 0 ≤ t.sec ∧ t.sec ≤ 60 then .ok (two t.sec) else .ub
  | .lit c => .ok [c]

/-- The characters `strftime` produces. -/
def fmtAll (t : Tm) : List Fmt → Out (List UInt8)
  | [] => .ok []
  | f :: fs => do
    let a ← fmtPiece t f
    let b ← fmtAll t fs
    .ok (a ++ b)

/-- `strftime(timebuf, len, fmt, &stm)`: writes characters and terminator if they fit and returns their number, else 0 (the
first `len` bytes are then unspecified). -/
def strftime (buf : Mem) (len : Nat) (t : Tm) (f : List Fmt) : Out (Mem × Nat) := do
  let s ← fmtAll t f
  if s.length < len then
    let b ← writeN buf 0 (s.map some ++ [some 0])
    .ok (b, s.length)
  else if len ≤ buf.length then .ok (List.replicate len none ++ buf.drop len, 0) else .ub

/-- `vt_datetime_to_text_fmt`, datetime.c:348-357, with the checks of its callers (datetime.c:69-88). -/
def toTextFmt (E : Env) (d : VDT) (buf : Mem) (len : Nat) (f : List Fmt) : Out Mem := do
  dassert E (len ≥ 26)
  let (b, n) ← strftime buf len (vdtToTm d) f
  writeN b n [some 0]

/-- `vt_datetime_to_text`, datetime.c:69-74. -/
def toText (E : Env) (d : VDT) (buf : Mem) (len : Nat) : Out Mem := toTextFmt E d buf len fmtText
/-- `vt_datetime_to_text_iso`, datetime.c:76-81. -/
def toTextIso (E : Env) (d : VDT) (buf : Mem) (len : Nat) : Out Mem := toTextFmt E d buf len fmtIso
/-- `vt_datetime_to_text_iso_ext`, datetime.c:83-88. -/
def toTextIsoExt (E : Env) (d : VDT) (buf : Mem) (len : Nat) : Out Mem := toTextFmt E d buf len fmtIsoExt

/-- `isdigit`; a negative `char` is not a digit (as in every C library in use; formally undefined). -/
def isDigit (c : UInt8) : Bool := 48 ≤ c && c ≤ 57
/-- `isalpha` of the C locale. -/
def isAlpha (c : UInt8) : Bool := (65 ≤ c && c ≤ 90) || (97 ≤ c && c ≤ 122)

/-- The loop of `vt_datetime_is_valid_fmt`, datetime.c:396-400, at position `i` with the rest of the format; the text is read only
where the format has a letter other than 'T'. -/
def validLoop (z : Mem) : List UInt8 → Nat → Out Bool
  | [], _ => .ok true
  | f :: fs, i =>
    if f ≠ 84 ∧ isAlpha f = true then do
      let c ← getc z i
      if !isDigit c then .ok false else validLoop z fs (i + 1)
    else validLoop z fs (i + 1)

/-- "YYYY-MM-DD HH:MM:SS" with terminator, datetime.c:209. -/
def vText : List UInt8 := [89, 89, 89, 89, 45, 77, 77, 45, 68, 68, 32, 72, 72, 58, 77, 77, 58, 83, 83, 0]
/-- "YYYYMMDDTHHMMSS" with terminator, datetime.c:217. -/
def vIso : List UInt8 := [89, 89, 89, 89, 77, 77, 68, 68, 84, 72, 72, 77, 77, 83, 83, 0]
/-- "YYYY-MM-DDTHH:MM:DD" with terminator, datetime.c:225. -/
def vIsoExt : List UInt8 := [89, 89, 89, 89, 45, 77, 77, 45, 68, 68, 84, 72, 72, 58, 77, 77, 58, 68, 68, 0]

/-- `vt_datetime_is_valid_text`, datetime.c:205-211. -/
def isValidText (z : Mem) : Out Bool := validLoop z vText 0
/-- `vt_datetime_is_valid_text_iso`, datetime.c:213-219. -/
def isValidIso (z : Mem) : Out Bool := validLoop z vIso 0
/-- `vt_datetime_is_valid_text_iso_ext`, datetime.c:221-227. -/
def isValidIsoExt (z : Mem) : Out Bool := validLoop z vIsoExt 0

/-- A piece of an `sscanf` format: `%Nd`, a literal character, white space. -/
inductive Scan
  | d (width : Nat)
  | lit (c : UInt8)
  | ws
  deriving DecidableEq, Repr

/-- "%4d-%2d-%2d %2d:%2d:%2d", datetime.c:123. -/
def sText : List Scan := [.d 4, .lit 45, .d 2, .lit 45, .d 2, .ws, .d 2, .lit 58, .d 2, .lit 58, .d 2]
/-- "%4d%2d%2dT%2d%2d%2d", datetime.c:136. -/
def sIso : List Scan := [.d 4, .d 2, .d 2, .lit 84, .d 2, .d 2, .d 2]
/-- "%4d-%2d-%2dT%2d:%2d:%2d", datetime.c:149. -/
def sIsoExt : List Scan := [.d 4, .lit 45, .d 2, .lit 45, .d 2, .lit 84, .d 2, .lit 58, .d 2, .lit 58, .d 2]

/-- White space of the C locale. -/
def isWs (c : UInt8) : Bool := c == 32 || (9 ≤ c && c ≤ 13)

/-- The longest prefix of at most `n` digits. -/
def takeDigits : Nat → List UInt8 → List UInt8 × List UInt8
  | 0, t => ([], t)
  | _ + 1, [] => ([], [])
  | n + 1, c :: t => if isDigit c then let (a, b) := takeDigits n t; (c :: a, b) else ([], c :: t)

/-- The number of a digit string. -/
def numVal (ds : List UInt8) : Int := ds.foldl (fun acc c => acc * 10 + (c.toNat - 48 : Nat)) 0

/-- The optional sign, which counts in the width. -/
def scanSign (w : Nat) : List UInt8 → Bool × Nat × List UInt8
  | [] => (false, w, [])
  | c :: r => if c = 45 then (true, w - 1, r) else if c = 43 then (false, w - 1, r) else (false, w, c :: r)

/-- `%Nd` of `sscanf`: skip white space, an optional sign, at least one digit. -/
def scanInt (w : Nat) (t : List UInt8) : Option (Int × List UInt8) :=
  let s := scanSign w (t.dropWhile isWs)
  let d := takeDigits s.2.1 s.2.2
  if d.1.isEmpty then none else some (if s.1 then -numVal d.1 else numVal d.1, d.2)

/-- `sscanf`: the numbers converted before the first mismatch. -/
def scan (t : List UInt8) : List Scan → List Int
  | [] => []
  | .d w :: fs =>
    match scanInt w t with
    | some (v, r) => v :: scan r fs
    | none => []
  | .lit c :: fs =>
    match t with
    | x :: r => if x = c then scan r fs else []
    | [] => []
  | .ws :: fs => scan (t.dropWhile isWs) fs

/-- `vt_datetime_from_text_fmt`, datetime.c:365-380: fields not converted stay 0. -/
def fromTextFmt (t : List UInt8) (f : List Scan) : VDT :=
  let v := scan t f
  let g (i : Nat) : Int := v.getD i 0
  tmToVdt ⟨g 0 - minYear, g 1 - 1, g 2, g 3, g 4, g 5, 0, 0⟩

/-- `vt_datetime_from_text`, datetime.c:113-124. -/
def fromText (z : Mem) : Out VDT := do
  let v ← isValidText z
  enforce v
  let t ← scanZ z
  .ok (fromTextFmt t sText)

/-- `vt_datetime_from_text_iso`, datetime.c:126-137. -/
def fromTextIso (z : Mem) : Out VDT := do
  let v ← isValidIso z
  enforce v
  let t ← scanZ z
  .ok (fromTextFmt t sIso)

/-- `vt_datetime_from_text_iso_ext`, datetime.c:139-150. -/
def fromTextIsoExt (z : Mem) : Out VDT := do
  let v ← isValidIsoExt z
  enforce v
  let t ← scanZ z
  .ok (fromTextFmt t sIsoExt)

/-- The names of the week days in `asctime`, Sunday first. -/
def wdayName (w : Int) : List UInt8 :=
  [[83, 117, 110], [77, 111, 110], [84, 117, 101], [87, 101, 100], [84, 104, 117], [70, 114, 105], [83, 97, 116]].getD w.toNat []

/-- The names of the months in `asctime`. -/
def monName (m : Int) : List UInt8 :=
  [[74, 97, 110], [70, 101, 98], [77, 97, 114], [65, 112, 114], [77, 97, 121], [74, 117, 110], [74, 117, 108], [65, 117, 103], [83, 101, 112],
   [79, 99, 116], [78, 111, 118], [68, 101, 99]].getD m.toNat []

/-- Fields in the ranges for which `asctime` is defined (ISO C 7.27.3.1), years from 1 on. -/
def Tm.Normal (t : Tm) : Prop :=
  -1900 < t.year ∧ (0 ≤ t.mon ∧ t.mon ≤ 11) ∧ (1 ≤ t.mday ∧ t.mday ≤ 31) ∧ (0 ≤ t.hour ∧ t.hour ≤ 23) ∧ (0 ≤ t.min ∧ t.min ≤ 59) ∧
  (0 ≤ t.sec ∧ t.sec ≤ 60) ∧ (0 ≤ t.wday ∧ t.wday ≤ 6)

instance (t : Tm) : Decidable t.Normal := inferInstanceAs (Decidable (_ ∧ _))

/-- `asctime_r(tm, timebuf)`, "%.3s %.3s%3d %.2d:%.2d:%.2d %d\n"; more than 26 characters including the terminator, or fields out
of range: undefined (ISO C 7.27.3.1). -/
def asctime (buf : Mem) (t : Tm) : Out Mem :=
  let day := if t.mday < 10 then [32, 32, UInt8.ofNat (48 + t.mday.toNat)] else 32 :: two t.mday
  let s := wdayName t.wday ++ [32] ++ monName t.mon ++ day ++ [32] ++ two t.hour ++ [58] ++ two t.min ++ [58] ++ two t.sec ++ [32] ++
    Conv.printD (t.year + 1900) ++ [10]
  if t.Normal ∧ s.length ≤ 25 then writeN buf 0 (s.map some ++ [some 0]) else .ub

/-- `vt_datetime_to_text_pretty`, datetime.c:90-111. -/
def toTextPretty (E : Env) (d : VDT) (buf : Mem) (len : Nat) : Out Mem := do
  dassert E (len ≥ 26)
  let b ← asctime buf (vdtToTm d)
  let c ← getc b 8
  let b ← if c = 48 then putc b 8 32 else .ok b
  let b ← putc b (wsub len 1) 0
  let c ← getc b 25
  if c = 10 then putc b 25 0 else putc b 24 0

/-- `vt_datetime_get_now`, datetime.c:9-13.  The value of `time(NULL)` is an argument. -/
def getNow (zn : Zone) (clock : Int) : Out VDT := do
  let t ← localtime zn clock
  .ok (tmToVdt t)

/-- `vt_datetime_get_now_as_text`, datetime.c:15-24. -/
def getNowText (E : Env) (zn : Zone) (clock : Int) (buf : Mem) (len : Nat) : Out Mem := do
  dassert E (len ≥ 26)
  let t ← localtime zn clock
  let (b, n) ← strftime buf len t fmtText
  writeN b n [some 0]

/-- `vt_datetime_get_now_as_text_pretty`, datetime.c:26-36. -/
def getNowPretty (E : Env) (zn : Zone) (clock : Int) (buf : Mem) (len : Nat) : Out Mem := do
  dassert E (len ≥ 26)
  let t ← localtime zn clock
  toTextPretty E (tmToVdt t) buf len

end DT
end Vita
