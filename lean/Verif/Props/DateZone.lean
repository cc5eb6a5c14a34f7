import Verif.Props.DateTime
/-!
# Properties C100 and C101: time zones with summer time, and adding months and years
-/

namespace Vita
open Out DT Spec

/-- The years that fit the struct, as moments. -/
def InRange (n : Int) : Prop := (⟨-32768, 1, 1, 0, 0, 0⟩ : Civil).secs ≤ n ∧ n < (⟨32768, 1, 1, 0, 0, 0⟩ : Civil).secs

instance (n : Int) : Decidable (InRange n) := inferInstanceAs (Decidable (_ ∧ _))

theorem inRange_iff {c : Civil} (hv : c.Valid) : InRange c.secs ↔ Is16 c.year := by
  have h1 := secs_lt_year hv (-32768)
  have h2 := secs_lt_year hv 32768
  unfold InRange Is16
  omega

/-- Equal moments are equal dates. -/
theorem civil_inj {a b : Civil} (ha : a.Valid) (hb : b.Valid) (h : a.secs = b.secs) : a = b := by
  have n1 : ¬ a.Before b := fun g => absurd (secs_lt ha hb g) (by omega)
  have n2 : ¬ b.Before a := fun g => absurd (secs_lt hb ha g) (by omega)
  unfold Civil.Before at n1 n2
  obtain ⟨y, m, d, h, mi, s⟩ := a
  obtain ⟨y', m', d', h', mi', s'⟩ := b
  simp only at n1 n2
  simp only [Civil.mk.injEq]
  omega

theorem full_inj {a b : Civil} (h : full a = full b) : a = b := by
  obtain ⟨y, m, d, h, mi, s⟩ := a
  obtain ⟨y', m', d', h', mi', s'⟩ := b
  simp only [full, VDT.mk.injEq] at h
  simp only [Civil.mk.injEq]
  omega

/-! ### C100: summer time -/

/-- How far the clocks of the zone are ahead of standard time at a moment. -/
def ahead (zn : Zone) (s : Int) : Int := zn.offset s - zn.std

/-- Central European Time in the year 2024: one hour ahead of Greenwich, in summer two. -/
def berlin : Zone := ⟨3600, fun s => if 1711846800 ≤ s ∧ s < 1729990800 then 7200 else 3600⟩

/-- **C100** `vt_datetime_from_secs` gives the time that clocks in the zone show. -/
theorem C100_from_secs (zn : Zone) (s : Int) (hy : InRange (s + zn.offset s)) :
    ∃ c : Civil, c.Valid ∧ c.secs = s + zn.offset s ∧ fromSecs zn s = .ok (full c) := by
  obtain ⟨c, hv, hs⟩ := exists_civil (s + zn.offset s)
  exact ⟨c, hv, hs, fromSecs_full hv ((inRange_iff hv).1 (by rw [hs]; exact hy)) hs⟩

/-- **C100** (partial: the claim is that the result is `s` in every zone.)  Converting a moment to a date and back gives a moment that is later
by as much as the clocks are ahead of standard time: the right one exactly if summer time was not in force. -/
theorem C100_secs_round_trip_partial (zn : Zone) (s : Int) (hy : InRange (s + zn.offset s))
    (h0 : s + zn.offset s < (⟨0, 1, 1, 0, 0, 0⟩ : Civil).secs ∨ (⟨1, 1, 1, 0, 0, 0⟩ : Civil).secs ≤ s + zn.offset s) :
    ∃ d, fromSecs zn s = .ok d ∧ toSecs zn d = s + ahead zn s := by
  obtain ⟨c, hv, hs, hf⟩ := C100_from_secs zn s hy
  have h1 := secs_lt_year hv 0
  have h2 := secs_lt_year hv 1
  refine ⟨_, hf, ?_⟩
  rw [C49_to_secs zn (full_holds c) hv (by omega), hs]
  unfold ahead
  omega

/-- **C100** The same for dates: the date comes back exactly if summer time is not in force at the moment found. -/
theorem C100_date_round_trip (zn : Zone) {d : VDT} {c : Civil} (h : Holds d c) (hv : c.Valid) (h0 : c.year ≠ 0)
    (hy : InRange (c.secs + ahead zn (c.secs - zn.std))) :
    ∃ c' : Civil, c'.Valid ∧ c'.secs = c.secs + ahead zn (c.secs - zn.std) ∧ fromSecs zn (toSecs zn d) = .ok (full c') ∧
      (c' = c ↔ ahead zn (c.secs - zn.std) = 0) := by
  have e : c.secs - zn.std + zn.offset (c.secs - zn.std) = c.secs + ahead zn (c.secs - zn.std) := by unfold ahead; omega
  obtain ⟨c', hv', hs', hf⟩ := C100_from_secs zn (c.secs - zn.std) (by rwa [e])
  rw [e] at hs'
  rw [C49_to_secs zn h hv h0]
  refine ⟨c', hv', hs', hf, ?_, fun g => civil_inj hv' hv (by omega)⟩
  rintro rfl
  omega

/-- What `vt_datetime_op` computes: the moment meant by the fields read as standard time, as the clocks show it. -/
theorem op_full (zn : Zone) (d delta : VDT) {n : Int}
    (hn : tmSecs 0 ⟨(vdtToTm d).year + delta.year, (vdtToTm d).mon + delta.month, (vdtToTm d).mday + delta.mday,
      (vdtToTm d).hour + delta.hour, (vdtToTm d).min + delta.minute, (vdtToTm d).sec + delta.second, (vdtToTm d).wday, (vdtToTm d).yday⟩ = n)
    (hy : InRange (n + ahead zn (n - zn.std))) :
    ∃ c' : Civil, c'.Valid ∧ c'.secs = n + ahead zn (n - zn.std) ∧ op zn d delta = full c' := by
  obtain ⟨c', hv, hs⟩ := exists_civil (n + ahead zn (n - zn.std))
  refine ⟨c', hv, hs, ?_⟩
  have hm : tmSecs zn.std ⟨(vdtToTm d).year + delta.year, (vdtToTm d).mon + delta.month, (vdtToTm d).mday + delta.mday,
      (vdtToTm d).hour + delta.hour, (vdtToTm d).min + delta.minute, (vdtToTm d).sec + delta.second, (vdtToTm d).wday, (vdtToTm d).yday⟩ =
      n - zn.std := by
    unfold tmSecs at hn ⊢
    omega
  simp only [op, mktime, hm]
  refine (brokenDown_full hv ((inRange_iff hv).1 (by rw [hs]; exact hy)) ?_).1
  rw [hs]
  unfold ahead
  omega

/-- **C100** (partial: the claim is the same without `ahead`.)  Adding days, hours, minutes and seconds adds, in addition, as much as the
clocks are ahead of standard time at the moment found. -/
theorem C100_op_partial (zn : Zone) {d : VDT} {c : Civil} (h : Holds d c) (hv : c.Valid) (h0 : c.year ≠ 0) (delta : VDT)
    (hd : delta.year = 0 ∧ delta.month = 0) {n : Int}
    (hn : n = c.secs + (delta.mday * 86400 + delta.hour * 3600 + delta.minute * 60 + delta.second))
    (hy : InRange (n + ahead zn (n - zn.std))) :
    ∃ c' : Civil, c'.Valid ∧ c'.secs = n + ahead zn (n - zn.std) ∧ op zn d delta = full c' := by
  refine op_full zn d delta ?_ hy
  rw [hd.1, hd.2, tmSecs_add, hn]
  have := C49_to_secs (0 : Int) h hv h0
  have e : tmSecs 0 (vdtToTm d) = toSecs (0 : Int) d := rfl
  rw [e, this]
  simp only
  omega

/-- The empty delta. -/
def nothing : VDT := ⟨0, 0, 0, 0, 0, 0, 0, 0⟩

/-- `vt_datetime_op` with an empty delta, several times. -/
def opTimes (zn : Zone) : Nat → VDT → VDT
  | 0, d => d
  | k + 1, d => opTimes zn k (op zn d nothing)

/-- **C100, refuted in summer.** Each call of `vt_datetime_op` that adds nothing moves a date on by the hour that clocks are ahead, as long as
summer time lasts. -/
theorem C100_op_drifts (zn : Zone) {sav : Int} (h1 : 0 ≤ sav) :
    ∀ (k : Nat) {d : VDT} {c : Civil}, Holds d c → c.Valid → 0 < c.year → InRange (c.secs + k * sav) →
      (∀ s, c.secs - zn.std ≤ s → s < c.secs - zn.std + k * sav → ahead zn s = sav) → 0 < sav →
      ∃ c' : Civil, c'.Valid ∧ c'.secs = c.secs + k * sav ∧ Holds (opTimes zn k d) c'
  | 0, d, c, h, hv, _, _, _, _ => ⟨c, hv, by simp, h⟩
  | k + 1, d, c, h, hv, h0, hy, hz, hp => by
    have e0 : (((k + 1 : Nat) : Int)) * sav = k * sav + sav := by
      rw [Int.natCast_add, Int.add_mul, Int.natCast_one, Int.one_mul]
    have e1 : 0 ≤ (k : Int) * sav := Int.mul_nonneg (by omega) h1
    rw [e0] at hz hy
    have ha : ahead zn (c.secs - zn.std) = sav := hz _ (by omega) (by omega)
    have hr : InRange (c.secs + ahead zn (c.secs - zn.std)) := by
      have := (inRange_iff hv).2 (by
        have := secs_lt_year hv 32768
        unfold InRange at hy
        unfold Is16
        omega)
      unfold InRange at this hy ⊢
      omega
    obtain ⟨c1, hv1, hs1, ho⟩ := C100_op_partial zn h hv (by omega) nothing ⟨rfl, rfl⟩ (n := c.secs) (by simp [nothing]) hr
    rw [ha] at hs1
    have y1 : 0 < c1.year := by
      have a1 := secs_lt_year hv 1
      have a2 := secs_lt_year hv1 1
      omega
    obtain ⟨c2, hv2, hs2, h2⟩ := C100_op_drifts zn h1 k (d := op zn d nothing) (c := c1) (by rw [ho]; exact full_holds c1) hv1 y1
      (by rw [hs1, show c.secs + sav + k * sav = c.secs + (k * sav + sav) by omega]; exact hy)
      (fun s g1 g2 => hz s (by omega) (by omega)) hp
    exact ⟨c2, hv2, by rw [hs2, hs1, e0]; omega, h2⟩

/-- **C100** (partial.)  The week day and the day of the year that `vt_datetime_create` fills in are those of a time that is later by as much
as the clocks are ahead: in the last hour of a summer day they are those of the next day. -/
theorem C100_week_day_partial (E : Env) (zn : Zone) (c : Civil) (hv : c.Valid) (h0 : 0 < c.year) (hs : zn.std ≤ c.secs) :
    ∃ c' : Civil, c'.Valid ∧ c'.secs = c.secs + ahead zn (c.secs - zn.std) ∧
      DT.create E zn c.year c.month c.day c.hour c.minute c.second (-1) (-1) =
        .ok ⟨c.year, c.month, c.day, c.hour, c.minute, c.second, c'.weekDay, c'.yearDay⟩ := by
  obtain ⟨c', hv', hs'⟩ := exists_civil (c.secs + ahead zn (c.secs - zn.std))
  refine ⟨c', hv', hs', create_auto E zn c c' hv hv' h0 hs ?_⟩
  rw [hs']
  unfold ahead
  omega

/-- **C100, refuted in summer.** If clocks are ahead by an hour and it is after 23:00, the week day is that of the next day. -/
theorem C100_week_day_wrong (E : Env) (zn : Zone) (c : Civil) (hv : c.Valid) (h0 : 0 < c.year) (hs : zn.std ≤ c.secs) (hh : c.hour = 23)
    (ha : ahead zn (c.secs - zn.std) = 3600) :
    ∃ r, DT.create E zn c.year c.month c.day c.hour c.minute c.second (-1) (-1) = .ok r ∧ r.wday = c.weekDay % 7 + 1 := by
  obtain ⟨c', hv', hs', hc⟩ := C100_week_day_partial E zn c hv h0 hs
  refine ⟨_, hc, ?_⟩
  simp only
  rw [ha] at hs'
  obtain ⟨-, -, -, -, h6, h7, h8⟩ := hv
  obtain ⟨-, -, -, -, h6', h7', h8'⟩ := hv'
  unfold Civil.secs at hs'
  unfold Civil.weekDay
  omega

/-- **C100** (partial: the claim is that it is the time elapsed.)  The difference of the dates of two moments is the time elapsed, and
the change of the clocks in between. -/
theorem C100_elapsed_partial (zn : Zone) (s t : Int) (hs : InRange (s + zn.offset s)) (ht : InRange (t + zn.offset t))
    (hs0 : (⟨1, 1, 1, 0, 0, 0⟩ : Civil).secs ≤ s + zn.offset s) (ht0 : (⟨1, 1, 1, 0, 0, 0⟩ : Civil).secs ≤ t + zn.offset t) :
    ∃ d e, getNow zn s = .ok d ∧ getNow zn t = .ok e ∧ diffSecs zn d e = (s - t) + (ahead zn s - ahead zn t) := by
  obtain ⟨d, hd, h1⟩ := C100_secs_round_trip_partial zn s hs (Or.inr hs0)
  obtain ⟨e, he, h2⟩ := C100_secs_round_trip_partial zn t ht (Or.inr ht0)
  refine ⟨d, e, hd, he, ?_⟩
  unfold diffSecs
  omega

/-- Example: noon (clock time 14:00) of the 1st of July 2024 in Berlin comes back an hour later; so does the date, and adding a day adds 25 hours. -/
example : fromSecs berlin 1719835200 = .ok ⟨2024, 7, 1, 14, 0, 0, 1, 183⟩ ∧ toSecs berlin ⟨2024, 7, 1, 14, 0, 0, 1, 183⟩ = 1719835200 + 3600 ∧
    fromSecs berlin (toSecs berlin ⟨2024, 7, 1, 14, 0, 0, 1, 183⟩) = .ok ⟨2024, 7, 1, 15, 0, 0, 1, 183⟩ ∧
    op berlin ⟨2024, 7, 1, 14, 0, 0, 1, 183⟩ ⟨0, 0, 1, 0, 0, 0, 0, 0⟩ = ⟨2024, 7, 2, 15, 0, 0, 2, 184⟩ ∧
    ahead berlin 1719835200 = 3600 := by decide +kernel
/-- Example: in winter all is right. -/
example : fromSecs berlin 1704106800 = .ok ⟨2024, 1, 1, 12, 0, 0, 1, 1⟩ ∧ toSecs berlin ⟨2024, 1, 1, 12, 0, 0, 1, 1⟩ = 1704106800 ∧
    ahead berlin 1704106800 = 0 := by decide +kernel
/-- Example: Monday, the 1st of July 2024, 23:30 is given as a Tuesday. -/
example : DT.create exE berlin 2024 7 1 23 30 0 (-1) (-1) = .ok ⟨2024, 7, 1, 23, 30, 0, 2, 184⟩ ∧ (⟨2024, 7, 1, 23, 30, 0⟩ : Civil).weekDay = 1 ∧
    ahead berlin ((⟨2024, 7, 1, 23, 30, 0⟩ : Civil).secs - 3600) = 3600 := by decide +kernel
/-- Example: three calls that add nothing. -/
example : opTimes berlin 3 ⟨2024, 7, 1, 14, 0, 0, 1, 183⟩ = ⟨2024, 7, 1, 17, 0, 0, 1, 183⟩ := by decide +kernel
/-- Example: two hours that span the beginning of summer time are three. -/
example : getNow berlin 1711843200 = .ok ⟨2024, 3, 31, 1, 0, 0, 7, 91⟩ ∧ getNow berlin 1711850400 = .ok ⟨2024, 3, 31, 4, 0, 0, 7, 91⟩ ∧
    diffSecs berlin ⟨2024, 3, 31, 4, 0, 0, 7, 91⟩ ⟨2024, 3, 31, 1, 0, 0, 7, 91⟩ = 3 * 3600 := by decide +kernel

/-! ### C101: adding months and years -/

/-- The `n`-th month counted from January of the year 0: its first moment. -/
def monthStart (n : Int) : Civil := ⟨n / 12, (n % 12).toNat + 1, 1, 0, 0, 0⟩

theorem monthStart_valid (n : Int) : (monthStart n).Valid := by
  have := monthLength_bounds (n / 12) ((n % 12).toNat + 1)
  refine ⟨?_, ?_, ?_, ?_, ?_, ?_, ?_⟩ <;> simp only [monthStart] <;> omega

theorem dayNumber_month (y mon mday : Int) : dayNumber y mon mday = (monthStart (y * 12 + mon)).days + (mday - 1) := by
  have h := dayNumber_eq (monthStart_valid (y * 12 + mon))
  rw [← h]
  simp only [monthStart, dayNumber]
  have e1 : (y * 12 + mon) / 12 = y + mon / 12 := by omega
  have e2 : (((y * 12 + mon) % 12).toNat + 1 : Nat) - (1 : Int) = mon % 12 := by omega
  rw [e1, e2, show mon % 12 / 12 = 0 by omega, show mon % 12 % 12 = mon % 12 by omega]
  simp only [Int.add_zero]
  omega

/-- The number of the month of a date. -/
def monthIndex (c : Civil) : Int := c.year * 12 + (c.month - 1)

/-- **C101** The result of `vt_datetime_op` for any delta, in a zone without summer time: months and years lead to a month, and from the beginning of
this month the days and times of day of the date and of the delta are counted. -/
theorem C101_op (off : Int) {d : VDT} {c : Civil} (h : Holds d c) (h0 : c.year ≠ 0) (delta : VDT) {n : Int}
    (hn : n = (monthStart (monthIndex c + delta.year * 12 + delta.month)).secs + (c.day - 1 + delta.mday) * 86400 +
      (c.hour + delta.hour) * 3600 + (c.minute + delta.minute) * 60 + (c.second + delta.second)) (hy : InRange n) :
    ∃ c' : Civil, c'.Valid ∧ c'.secs = n ∧ op off d delta = full c' := by
  have ha : ∀ s, ahead off s = 0 := fun s => by unfold ahead; simp only; omega
  have := op_full off d delta (n := n) ?_ (by rw [ha]; simpa using hy)
  · obtain ⟨c', hv', hs', ho⟩ := this
    exact ⟨c', hv', by rw [hs', ha]; omega, ho⟩
  · obtain ⟨e1, e2, e3, e4, e5, e6⟩ := h
    rw [hn]
    simp only [tmSecs, vdtToTm, minYear]
    rw [if_pos (by omega), dayNumber_month, e1, e2, e3, e4, e5, e6]
    have : ((c.year - 1900 + delta.year + 1900) * 12 + (c.month - 1 + delta.month) : Int) = monthIndex c + delta.year * 12 + delta.month := by
      unfold monthIndex; omega
    rw [this]
    simp only [Civil.secs, monthStart]
    push_cast
    omega

theorem monthStart_add {c : Civil} (hv : c.Valid) : (monthStart (monthIndex c)).days + (c.day - 1) = c.days := by
  have h := dayNumber_eq hv
  rw [dayNumber_month] at h
  unfold monthIndex
  omega

/-- **C101** Adding months and years gives the same day of the month and time of day in the month that many months on, if it has
that day. -/
theorem C101_months (off : Int) {d : VDT} {c : Civil} (h : Holds d c) (hv : c.Valid) (h0 : c.year ≠ 0) (years months : Int) {m : Civil}
    (hm : m = monthStart (monthIndex c + years * 12 + months)) (hy : Is16 m.year) (hd : c.day ≤ monthLength m.year m.month) :
    op off d ⟨years, months, 0, 0, 0, 0, 0, 0⟩ = full ⟨m.year, m.month, c.day, c.hour, c.minute, c.second⟩ := by
  have hmv : m.Valid := by rw [hm]; exact monthStart_valid _
  obtain ⟨q1, q2, q3, q4, q5, q6, q7⟩ := hv
  have hv' : (⟨m.year, m.month, c.day, c.hour, c.minute, c.second⟩ : Civil).Valid := ⟨hmv.1, hmv.2.1, q3, hd, q5, q6, q7⟩
  have hi : monthIndex ⟨m.year, m.month, c.day, c.hour, c.minute, c.second⟩ = monthIndex c + years * 12 + months := by
    rw [hm]; simp only [monthIndex, monthStart]; omega
  have hs := monthStart_add hv'
  rw [hi] at hs
  have key : (⟨m.year, m.month, c.day, c.hour, c.minute, c.second⟩ : Civil).secs =
      (monthStart (monthIndex c + years * 12 + months)).secs + (c.day - 1 + 0) * 86400 +
      (c.hour + 0) * 3600 + (c.minute + 0) * 60 + (c.second + 0) := by
    have e : (monthStart (monthIndex c + years * 12 + months)).secs = (monthStart (monthIndex c + years * 12 + months)).days * 86400 := by
      simp [Civil.secs, monthStart]
    rw [e, Civil.secs, ← hs]
    simp only
    omega
  obtain ⟨c', hc1, hc2, hc3⟩ := C101_op off h h0 ⟨years, months, 0, 0, 0, 0, 0, 0⟩ rfl (by
    rw [show (monthStart (monthIndex c + years * 12 + months)).secs + (c.day - 1 + 0) * 86400 +
      (c.hour + 0) * 3600 + (c.minute + 0) * 60 + (c.second + 0) = _ from key.symm]
    exact (inRange_iff hv').2 hy)
  rw [hc3, civil_inj hc1 hv' (by rw [hc2, key])]

theorem monthStart_succ (n : Int) : (monthStart (n + 1)).days =
    (monthStart n).days + monthLength (monthStart n).year (monthStart n).month := by
  rw [Civil.days_eq, Civil.days_eq]
  have hr : 0 ≤ n % 12 ∧ n % 12 < 12 := by omega
  obtain ⟨k, hk⟩ : ∃ k : Nat, n % 12 = k := ⟨(n % 12).toNat, by omega⟩
  by_cases h : k < 11
  · have e1 : (n + 1) / 12 = n / 12 := by omega
    have e2 : ((n + 1) % 12).toNat = k + 1 := by omega
    simp only [monthStart, Civil.yearDay, e1, e2, hk, Int.toNat_natCast, Nat.add_sub_cancel, List.range_succ, List.map_append,
      List.sum_append, List.map_cons, List.map_nil, List.sum_cons, List.sum_nil]
    push_cast
    omega
  · have e1 : (n + 1) / 12 = n / 12 + 1 := by omega
    have e2 : ((n + 1) % 12).toNat = 0 := by omega
    have e3 : k = 11 := by omega
    have hs := daysBeforeYear_succ (n / 12)
    simp only [monthStart, Civil.yearDay, e1, e2, hk, Int.toNat_natCast, Nat.add_sub_cancel, e3, hs]
    unfold yearLength
    by_cases hl : Leap (n / 12) <;> simp [monthLength, hl, List.range_succ] <;> omega

/-- **C101** If the month does not have that day, the days that are too many are counted into the next month. -/
theorem C101_overflow (off : Int) {d : VDT} {c : Civil} (h : Holds d c) (hv : c.Valid) (h0 : c.year ≠ 0) (years months : Int) {m m' : Civil}
    (hm : m = monthStart (monthIndex c + years * 12 + months)) (hm' : m' = monthStart (monthIndex c + years * 12 + months + 1))
    (hy : Is16 m'.year) (hd : monthLength m.year m.month < c.day) :
    op off d ⟨years, months, 0, 0, 0, 0, 0, 0⟩ =
      full ⟨m'.year, m'.month, c.day - monthLength m.year m.month, c.hour, c.minute, c.second⟩ := by
  have hmv : m'.Valid := by rw [hm']; exact monthStart_valid _
  have b1 := monthLength_bounds m.year m.month
  have b2 := monthLength_bounds m'.year m'.month
  have b3 := monthLength_bounds c.year c.month
  obtain ⟨q1, q2, q3, q4, q5, q6, q7⟩ := hv
  have hv' : (⟨m'.year, m'.month, c.day - monthLength m.year m.month, c.hour, c.minute, c.second⟩ : Civil).Valid :=
    ⟨hmv.1, hmv.2.1, by simp only; omega, by simp only; omega, q5, q6, q7⟩
  have hi : monthIndex ⟨m'.year, m'.month, c.day - monthLength m.year m.month, c.hour, c.minute, c.second⟩ =
      monthIndex c + years * 12 + months + 1 := by
    rw [hm']; simp only [monthIndex, monthStart]; omega
  have hs := monthStart_add hv'
  rw [hi] at hs
  have hstep : (monthStart (monthIndex c + years * 12 + months + 1)).days =
      (monthStart (monthIndex c + years * 12 + months)).days + monthLength m.year m.month := by
    rw [hm, monthStart_succ]
  have key : (⟨m'.year, m'.month, c.day - monthLength m.year m.month, c.hour, c.minute, c.second⟩ : Civil).secs =
      (monthStart (monthIndex c + years * 12 + months)).secs + (c.day - 1 + 0) * 86400 +
      (c.hour + 0) * 3600 + (c.minute + 0) * 60 + (c.second + 0) := by
    have e : (monthStart (monthIndex c + years * 12 + months)).secs = (monthStart (monthIndex c + years * 12 + months)).days * 86400 := by
      simp [Civil.secs, monthStart]
    rw [e, Civil.secs, ← hs, hstep]
    simp only
    omega
  obtain ⟨c', hc1, hc2, hc3⟩ := C101_op off h h0 ⟨years, months, 0, 0, 0, 0, 0, 0⟩ rfl (by
    rw [show (monthStart (monthIndex c + years * 12 + months)).secs + (c.day - 1 + 0) * 86400 +
      (c.hour + 0) * 3600 + (c.minute + 0) * 60 + (c.second + 0) = _ from key.symm]
    exact (inRange_iff hv').2 hy)
  rw [hc3, civil_inj hc1 hv' (by rw [hc2, key])]

/-- **C101** Months and years added and taken off again give the old date, for days up to the 28th. -/
theorem C101_back (off : Int) {d : VDT} {c : Civil} (h : Holds d c) (hv : c.Valid) (hy : Is16 c.year) (h0 : c.year ≠ 0) (h28 : c.day ≤ 28) (years months : Int)
    (h1 : Is16 (monthStart (monthIndex c + years * 12 + months)).year) (h2 : (monthStart (monthIndex c + years * 12 + months)).year ≠ 0) :
    op off (op off d ⟨years, months, 0, 0, 0, 0, 0, 0⟩) ⟨-years, -months, 0, 0, 0, 0, 0, 0⟩ = full c := by
  generalize hm : monthStart (monthIndex c + years * 12 + months) = m at h1 h2
  have b1 := monthLength_bounds m.year m.month
  have hmv : m.Valid := by rw [← hm]; exact monthStart_valid _
  rw [C101_months off h hv h0 years months hm.symm h1 (by omega)]
  obtain ⟨q1, q2, q3, q4, q5, q6, q7⟩ := hv
  have e1 : monthIndex ⟨m.year, m.month, c.day, c.hour, c.minute, c.second⟩ = monthIndex c + years * 12 + months := by
    rw [← hm]; simp only [monthIndex, monthStart]; omega
  have e2 : monthIndex ⟨m.year, m.month, c.day, c.hour, c.minute, c.second⟩ + -years * 12 + -months = monthIndex c := by omega
  have e3 : monthStart (monthIndex c) = ⟨c.year, c.month, 1, 0, 0, 0⟩ := by
    unfold monthStart monthIndex
    rw [show (c.year * 12 + ((c.month : Int) - 1)) / 12 = c.year by omega,
      show ((c.year * 12 + ((c.month : Int) - 1)) % 12).toNat + 1 = c.month by omega]
  have hv2 : (⟨m.year, m.month, c.day, c.hour, c.minute, c.second⟩ : Civil).Valid :=
    ⟨hmv.1, hmv.2.1, q3, by simp only; omega, q5, q6, q7⟩
  have := C101_months off (full_holds ⟨m.year, m.month, c.day, c.hour, c.minute, c.second⟩) hv2 h2 (-years) (-months)
    (m := ⟨c.year, c.month, 1, 0, 0, 0⟩) (by rw [e2, e3]) hy q4
  rw [this]

/-- Example: a month after January 31st, 2024 and 2023; 100 years after a leap day; 13 months back. -/
example : op 0 ⟨2024, 1, 31, 12, 0, 0, 0, 0⟩ ⟨0, 1, 0, 0, 0, 0, 0, 0⟩ = full ⟨2024, 3, 2, 12, 0, 0⟩ ∧
    op 0 ⟨2023, 1, 31, 12, 0, 0, 0, 0⟩ ⟨0, 1, 0, 0, 0, 0, 0, 0⟩ = full ⟨2023, 3, 3, 12, 0, 0⟩ ∧
    op 0 ⟨2000, 2, 29, 0, 0, 0, 0, 0⟩ ⟨100, 0, 0, 0, 0, 0, 0, 0⟩ = full ⟨2100, 3, 1, 0, 0, 0⟩ ∧
    op 0 ⟨2024, 1, 15, 0, 0, 0, 0, 0⟩ ⟨0, -13, 0, 0, 0, 0, 0, 0⟩ = full ⟨2022, 12, 15, 0, 0, 0⟩ := by decide +kernel

end Vita
