import Verif.Props.DateZone
/-!
# Property C128: adding spans of time
-/

namespace Vita
open Out DT Spec

/-- The seconds of a span of days, hours, minutes and seconds, each of any sign. -/
def span (e : VDT) : Int := e.mday * 86400 + e.hour * 3600 + e.minute * 60 + e.second

/-- A delta of days, hours, minutes and seconds only. -/
def IsSpan (e : VDT) : Prop := e.year = 0 ∧ e.month = 0

instance (e : VDT) : Decidable (IsSpan e) := inferInstanceAs (Decidable (_ ∧ _))

/-- The sum of two deltas, field by field. -/
def plus (a b : VDT) : VDT :=
  ⟨a.year + b.year, a.month + b.month, a.mday + b.mday, a.hour + b.hour, a.minute + b.minute, a.second + b.second, 0, 0⟩

/-- The opposite delta. -/
def minus (a : VDT) : VDT := ⟨-a.year, -a.month, -a.mday, -a.hour, -a.minute, -a.second, 0, 0⟩

/-- `vt_datetime_op` with one delta after the other. -/
def opAll (zn : Zone) (d : VDT) (es : List VDT) : VDT := es.foldl (op zn) d

/-- The moments of the years other than 0 that fit the struct. -/
def Usable (n : Int) : Prop :=
  InRange n ∧ (n < (⟨0, 1, 1, 0, 0, 0⟩ : Civil).secs ∨ (⟨1, 1, 1, 0, 0, 0⟩ : Civil).secs ≤ n)

instance (n : Int) : Decidable (Usable n) := inferInstanceAs (Decidable (_ ∧ _))

theorem usable_iff {c : Civil} (hv : c.Valid) : Usable c.secs ↔ Is16 c.year ∧ c.year ≠ 0 := by
  have h1 := secs_lt_year hv 0
  have h2 := secs_lt_year hv 1
  unfold Usable
  rw [inRange_iff hv]
  refine and_congr_right fun _ => ⟨fun g => ?_, fun g => ?_⟩ <;> omega

/-- **C128** Adding a span gives the date that many seconds on. -/
theorem C128_add (off : Int) {d : VDT} {c : Civil} (h : Holds d c) (hv : c.Valid) (h0 : c.year ≠ 0) (e : VDT) (he : IsSpan e)
    (hr : InRange (c.secs + span e)) : ∃ c' : Civil, c'.Valid ∧ c'.secs = c.secs + span e ∧ op off d e = full c' := by
  have ha : ahead off (c.secs + span e - off) = 0 := by unfold ahead; simp only; omega
  have := C100_op_partial off h hv h0 e he (n := c.secs + span e) rfl (by rw [show ahead _ _ = 0 from ha]; simpa using hr)
  obtain ⟨c', hv', hs', ho⟩ := this
  exact ⟨c', hv', by rw [hs']; simp only [ahead]; omega, ho⟩

/-- **C128** `vt_datetime_diff_secs` of the new date and the old one is what was added. -/
theorem C128_difference_partial (off : Int) {d : VDT} {c : Civil} (h : Holds d c) (hv : c.Valid) (h0 : c.year ≠ 0) (e : VDT) (he : IsSpan e)
    (hr : Usable (c.secs + span e)) : diffSecs off (op off d e) d = span e := by
  obtain ⟨c', hv', hs', ho⟩ := C128_add off h hv h0 e he hr.1
  rw [← hs'] at hr
  rw [ho, C52_diff_exact off (full_holds c') h hv' hv ((usable_iff hv').1 hr).2 h0]
  omega

/-- **C128** Any number of spans one after the other: the result is the date as many seconds on as the spans have together. -/
theorem C128_sum_partial (off : Int) (es : List VDT) : ∀ {d : VDT} {c : Civil} (_ : Holds d c) (_ : c.Valid) (_ : c.year ≠ 0)
    (_ : ∀ e ∈ es, IsSpan e) (_ : ∀ k, 0 < k → k < es.length → Usable (c.secs + ((es.take k).map span).sum))
    (_ : InRange (c.secs + (es.map span).sum)) (_ : es ≠ []),
    ∃ c' : Civil, c'.Valid ∧ c'.secs = c.secs + (es.map span).sum ∧ opAll off d es = full c' := by
  induction es with
  | nil => intro d c _ _ _ _ _ _ h; exact absurd rfl h
  | cons e es ih =>
    intro d c h hv h0 he hk hr _
    rcases es with _ | ⟨e2, es⟩
    · obtain ⟨c', hv', hs', ho⟩ := C128_add off h hv h0 e (he _ (by simp)) (by simpa using hr)
      exact ⟨c', hv', by simpa using hs', by simpa [opAll] using ho⟩
    · have hu : Usable (c.secs + span e) := by simpa using hk 1 (by omega) (by simp)
      obtain ⟨c1, hv1, hs1, ho1⟩ := C128_add off h hv h0 e (he _ (by simp)) hu.1
      have h1 := (usable_iff hv1).1 (by rw [hs1]; exact hu)
      obtain ⟨c', hv', hs', ho'⟩ := ih (d := op off d e) (c := c1) (by rw [ho1]; exact full_holds c1) hv1 h1.2
        (fun x hx => he x (List.mem_cons_of_mem _ hx))
        (fun k k0 k1 => by
          have := hk (k + 1) (by omega) (by simpa using k1)
          rw [List.take_succ_cons, List.map_cons, List.sum_cons] at this
          rwa [hs1, Int.add_assoc])
        (by rw [hs1, Int.add_assoc]; simpa only [List.map_cons, List.sum_cons] using hr) (by simp)
      refine ⟨c', hv', ?_, ?_⟩
      · rw [hs', hs1, List.map_cons (a := e), List.sum_cons (a := span e), Int.add_assoc]
      · rw [← ho', opAll, List.foldl_cons, opAll]

/-- **C128** Two spans, one after the other, are the sum of the spans at once, whatever their order. -/
theorem C128_two_partial (off : Int) {d : VDT} {c : Civil} (h : Holds d c) (hv : c.Valid) (h0 : c.year ≠ 0) (e f : VDT) (he : IsSpan e)
    (hf : IsSpan f) (hu : Usable (c.secs + span e)) (hw : Usable (c.secs + span f)) (hr : InRange (c.secs + span e + span f)) :
    op off (op off d e) f = op off d (plus e f) ∧ op off (op off d f) e = op off d (plus e f) := by
  have hp : IsSpan (plus e f) := by
    obtain ⟨a, b⟩ := he
    obtain ⟨a', b'⟩ := hf
    exact ⟨by simp [plus, a, a'], by simp [plus, b, b']⟩
  have hs : span (plus e f) = span e + span f := by simp only [span, plus]; omega
  obtain ⟨c', hv', hs', ho'⟩ := C128_add off h hv h0 (plus e f) hp (by rw [hs, ← Int.add_assoc]; exact hr)
  have two : ∀ a b : VDT, IsSpan a → IsSpan b → Usable (c.secs + span a) → span a + span b = span e + span f →
      op off (op off d a) b = op off d (plus e f) := by
    intro a b ha hb hua hab
    obtain ⟨c2, hv2, hs2, ho2⟩ := C128_sum_partial off [a, b] h hv h0 (by simp [ha, hb])
      (fun k k0 k1 => by
        obtain rfl : k = 1 := by simp at k1; omega
        simpa using hua)
      (by simp only [List.map_cons, List.map_nil, List.sum_cons, List.sum_nil]
          rw [show c.secs + (span a + (span b + 0)) = c.secs + span e + span f by omega]; exact hr) (by simp)
    simp only [List.map_cons, List.map_nil, List.sum_cons, List.sum_nil] at hs2
    have : c2 = c' := civil_inj hv2 hv' (by omega)
    rw [ho', ← this, ← ho2]
    rfl
  exact ⟨two e f he hf hu rfl, two f e hf he hw (by omega)⟩

/-- **C128** A span added and taken off again gives the old date. -/
theorem C128_back_partial (off : Int) {d : VDT} {c : Civil} (h : Holds d c) (hv : c.Valid) (hy : Is16 c.year) (h0 : c.year ≠ 0) (e : VDT)
    (he : IsSpan e) (hu : Usable (c.secs + span e)) : op off (op off d e) (minus e) = full c := by
  obtain ⟨c1, hv1, hs1, ho1⟩ := C128_add off h hv h0 e he hu.1
  have h1 := (usable_iff hv1).1 (by rw [hs1]; exact hu)
  have hm : IsSpan (minus e) := by
    obtain ⟨a, b⟩ := he
    exact ⟨by simp [minus, a], by simp [minus, b]⟩
  have hs : c1.secs + span (minus e) = c.secs := by rw [hs1]; simp only [span, minus]; omega
  obtain ⟨c2, hv2, hs2, ho2⟩ := C128_add off (d := op off d e) (by rw [ho1]; exact full_holds c1) hv1 h1.2 (minus e) hm
    (by rw [hs]; exact (inRange_iff hv).2 hy)
  rw [ho2, civil_inj hv2 hv (by omega)]

/-- **C128** The same span keeps the order of two dates. -/
theorem C128_order_partial (off : Int) {d d' : VDT} {c c' : Civil} (h : Holds d c) (h' : Holds d' c') (hv : c.Valid) (hv' : c'.Valid)
    (h0 : c.year ≠ 0) (h0' : c'.year ≠ 0) (e : VDT) (he : IsSpan e) (hu : Usable (c.secs + span e)) (hu' : Usable (c'.secs + span e)) :
    diffSecs off (op off d e) (op off d' e) = diffSecs off d d' := by
  obtain ⟨c1, hv1, hs1, ho1⟩ := C128_add off h hv h0 e he hu.1
  obtain ⟨c2, hv2, hs2, ho2⟩ := C128_add off h' hv' h0' e he hu'.1
  rw [← hs1] at hu
  rw [← hs2] at hu'
  rw [ho1, ho2, C52_diff_exact off (full_holds c1) (full_holds c2) hv1 hv2 ((usable_iff hv1).1 hu).2 ((usable_iff hv2).1 hu').2,
    C52_diff_exact off h h' hv hv' h0 h0']
  omega

/-- **C128** The year 0, which no calendar has, is read as the year 3800 (datetime.c:328): a date that an addition has led into the
year 0 is continued 3800 years later. -/
theorem C128_year_zero (off : Int) {d : VDT} {c : Civil} (h : Holds d c) (hv : c.Valid) (h0 : c.year ≠ 0) (e f : VDT) (he : IsSpan e)
    (hf : IsSpan f) {m : Civil} (hm : m.Valid) (hs : m.secs = c.secs + span e) (h1 : m.year = 0)
    (hr : InRange (c.secs + span e + span f))
    (hr' : InRange ((monthStart (3800 * 12 + (m.month - 1))).secs + (m.day - 1) * 86400 + m.hour * 3600 + m.minute * 60 + m.second + span f)) :
    ∃ r r' : Civil, r.Valid ∧ r'.Valid ∧ op off d (plus e f) = full r ∧ r.secs = c.secs + span e + span f ∧
      op off (op off d e) f = full r' ∧
      r'.secs = (monthStart (3800 * 12 + (m.month - 1))).secs + (m.day - 1) * 86400 + m.hour * 3600 + m.minute * 60 + m.second + span f ∧
      r.secs < r'.secs := by
  have hp : IsSpan (plus e f) := by
    obtain ⟨a, b⟩ := he
    obtain ⟨a', b'⟩ := hf
    exact ⟨by simp [plus, a, a'], by simp [plus, b, b']⟩
  have hsp : span (plus e f) = span e + span f := by simp only [span, plus]; omega
  obtain ⟨r, hrv, hrs, hro⟩ := C128_add off h hv h0 (plus e f) hp (by rw [hsp, ← Int.add_assoc]; exact hr)
  obtain ⟨c1, hv1, hs1, ho1⟩ := C128_add off h hv h0 e he (by rw [← hs]; exact (inRange_iff hm).2 (by rw [h1]; decide))
  obtain rfl : c1 = m := civil_inj hv1 hm (by omega)
  have hz : op off (full c1) f = op off ⟨3800, c1.month, c1.day, c1.hour, c1.minute, c1.second, c1.weekDay, c1.yearDay⟩ f := by
    simp only [op, vdtToTm, full, h1, minYear]
    rfl
  obtain ⟨q1, q2, q3, q4, q5, q6, q7⟩ := id hv1
  have hh : Holds ⟨3800, c1.month, c1.day, c1.hour, c1.minute, c1.second, c1.weekDay, c1.yearDay⟩
      (⟨3800, c1.month, c1.day, c1.hour, c1.minute, c1.second⟩ : Civil) := ⟨rfl, rfl, rfl, rfl, rfl, rfl⟩
  obtain ⟨r', hrv', hrs', hro'⟩ := C101_op off hh (show (3800 : Int) ≠ 0 by decide) f rfl (by
    simp only [monthIndex, hf.1, hf.2, Int.zero_mul, Int.add_zero]
    refine Eq.mp ?_ hr'
    congr 1
    simp only [span]
    omega)
  simp only [monthIndex, hf.1, hf.2, Int.zero_mul, Int.add_zero] at hrs'
  have key : (monthStart (monthIndex c1)).secs < (monthStart (3800 * 12 + (c1.month - 1))).secs := by
    refine secs_lt (monthStart_valid _) (monthStart_valid _) (.inl ?_)
    simp only [monthStart, monthIndex]
    omega
  have hms : c1.secs = (monthStart (monthIndex c1)).secs + (c1.day - 1) * 86400 + c1.hour * 3600 + c1.minute * 60 + c1.second := by
    have e := monthStart_add hv1
    have e2 : (monthStart (monthIndex c1)).secs = (monthStart (monthIndex c1)).days * 86400 := by simp [Civil.secs, monthStart]
    rw [e2, Civil.secs, ← e]
    omega
  refine ⟨r, r', hrv, hrv', hro, by rw [hrs, hsp]; omega, by rw [ho1, hz, hro'], ?_, ?_⟩
  · rw [hrs']; simp only [span]; omega
  · rw [hrs', hrs, hsp]
    simp only [span] at hs ⊢
    omega

/-- **C128** Months and years: adding them in two steps gives the same as at once exactly if the month reached first has the day, or has as many
days as the month reached at last. -/
theorem C128_months_exactly (off : Int) {d : VDT} {c : Civil} (h : Holds d c) (hv : c.Valid) (h0 : c.year ≠ 0) (y1 m1 y2 m2 : Int)
    {a a' b b' : Civil} (ha : a = monthStart (monthIndex c + y1 * 12 + m1)) (ha' : a' = monthStart (monthIndex c + y1 * 12 + m1 + 1))
    (hb : b = monthStart (monthIndex c + (y1 + y2) * 12 + (m1 + m2))) (hb' : b' = monthStart (monthIndex c + (y1 + y2) * 12 + (m1 + m2) + 1))
    (hya : Is16 a.year ∧ a.year ≠ 0) (hya' : Is16 a'.year ∧ a'.year ≠ 0) (hyb : Is16 b.year) (hyb' : Is16 b'.year) :
    op off (op off d ⟨y1, m1, 0, 0, 0, 0, 0, 0⟩) ⟨y2, m2, 0, 0, 0, 0, 0, 0⟩ = op off d ⟨y1 + y2, m1 + m2, 0, 0, 0, 0, 0, 0⟩ ↔
      c.day ≤ monthLength a.year a.month ∨ monthLength b.year b.month = monthLength a.year a.month := by
  have hav : a.Valid := by rw [ha]; exact monthStart_valid _
  have hav' : a'.Valid := by rw [ha']; exact monthStart_valid _
  have b1 := monthLength_bounds a.year a.month
  have b2 := monthLength_bounds a'.year a'.month
  have b3 := monthLength_bounds b'.year b'.month
  have b4 := monthLength_bounds c.year c.month
  obtain ⟨q1, q2, q3, q4, q5, q6, q7⟩ := id hv
  rcases Nat.lt_or_ge (monthLength a.year a.month) c.day with hd | hd
  · rw [C101_overflow off h hv h0 y1 m1 ha ha' hya'.1 hd]
    have hvm : (⟨a'.year, a'.month, c.day - monthLength a.year a.month, c.hour, c.minute, c.second⟩ : Civil).Valid :=
      ⟨hav'.1, hav'.2.1, by simp only; omega, by simp only; omega, q5, q6, q7⟩
    have hi : monthIndex ⟨a'.year, a'.month, c.day - monthLength a.year a.month, c.hour, c.minute, c.second⟩ =
        monthIndex c + y1 * 12 + m1 + 1 := by rw [ha']; simp only [monthIndex, monthStart]; omega
    have e := C101_months off (full_holds _) hvm hya'.2 y2 m2 (m := b')
      (by rw [hb', hi]; congr 1; omega) hyb' (by simp only; omega)
    rw [e]
    simp only
    rcases Nat.lt_or_ge (monthLength b.year b.month) c.day with hd2 | hd2
    · rw [C101_overflow off h hv h0 _ _ hb hb' hyb' hd2]
      constructor
      · intro g
        have := full_inj g
        simp only [Civil.mk.injEq] at this
        omega
      · intro g
        rw [show monthLength b.year b.month = monthLength a.year a.month by omega]
    · rw [C101_months off h hv h0 _ _ hb hyb hd2]
      constructor
      · intro g
        have := full_inj g
        simp only [Civil.mk.injEq] at this
        omega
      · omega
  · rw [C101_months off h hv h0 y1 m1 ha hya.1 hd]
    refine ⟨fun _ => .inl hd, fun _ => ?_⟩
    have hvm : (⟨a.year, a.month, c.day, c.hour, c.minute, c.second⟩ : Civil).Valid := ⟨hav.1, hav.2.1, q3, hd, q5, q6, q7⟩
    have hi : monthIndex ⟨a.year, a.month, c.day, c.hour, c.minute, c.second⟩ = monthIndex c + y1 * 12 + m1 := by
      rw [ha]; simp only [monthIndex, monthStart]; omega
    rcases Nat.lt_or_ge (monthLength b.year b.month) c.day with hd2 | hd2
    · rw [C101_overflow off h hv h0 _ _ hb hb' hyb' hd2,
        C101_overflow off (full_holds _) hvm hya.2 y2 m2 (m := b) (m' := b') (by rw [hb, hi]; congr 1; omega)
          (by rw [hb', hi]; congr 1; omega) hyb' hd2]
    · rw [C101_months off h hv h0 _ _ hb hyb hd2,
        C101_months off (full_holds _) hvm hya.2 y2 m2 (m := b) (by rw [hb, hi]; congr 1; omega) hyb hd2]

/-- Example: 36 hours twice, three days at once; the spans of a list; a leap day on the way. -/
example : op 0 (op 0 ⟨2024, 2, 28, 12, 0, 0, 0, 0⟩ ⟨0, 0, 0, 36, 0, 0, 0, 0⟩) ⟨0, 0, 0, 36, 0, 0, 0, 0⟩ =
      op 0 ⟨2024, 2, 28, 12, 0, 0, 0, 0⟩ ⟨0, 0, 3, 0, 0, 0, 0, 0⟩ ∧
    opAll 0 ⟨2024, 2, 28, 12, 0, 0, 0, 0⟩ [⟨0, 0, 1, 0, 0, 0, 0, 0⟩, ⟨0, 0, 0, 24, 0, 0, 0, 0⟩, ⟨0, 0, 0, 0, -1, 30, 0, 0⟩] =
      full ⟨2024, 3, 1, 11, 59, 30⟩ := by decide +kernel
/-- Example: the hypotheses of `C128_two_partial`. -/
example : Holds ⟨2024, 2, 28, 12, 0, 0, 0, 0⟩ (⟨2024, 2, 28, 12, 0, 0⟩ : Civil) ∧ (⟨2024, 2, 28, 12, 0, 0⟩ : Civil).Valid ∧
    IsSpan ⟨0, 0, 0, 36, 0, 0, 0, 0⟩ ∧ Usable ((⟨2024, 2, 28, 12, 0, 0⟩ : Civil).secs + span ⟨0, 0, 0, 36, 0, 0, 0, 0⟩) := by
  refine ⟨by decide, by decide, by decide, ?_⟩
  rw [show (⟨2024, 2, 28, 12, 0, 0⟩ : Civil).secs + span ⟨0, 0, 0, 36, 0, 0, 0, 0⟩ = (⟨2024, 3, 1, 0, 0, 0⟩ : Civil).secs by decide +kernel]
  exact (usable_iff (by decide)).2 (by decide)
/-- Example: through the year 0 and back. -/
example : op 0 (op 0 ⟨1, 1, 1, 0, 0, 0, 0, 0⟩ ⟨0, 0, -1, 0, 0, 0, 0, 0⟩) ⟨0, 0, 1, 0, 0, 0, 0, 0⟩ = full ⟨3801, 1, 1, 0, 0, 0⟩ := by decide +kernel
/-- Example: a month and a month after January 31st, and two months after; through December, which has the day. -/
example : op 0 (op 0 ⟨2024, 1, 31, 0, 0, 0, 0, 0⟩ ⟨0, 1, 0, 0, 0, 0, 0, 0⟩) ⟨0, 1, 0, 0, 0, 0, 0, 0⟩ = full ⟨2024, 4, 2, 0, 0, 0⟩ ∧
    op 0 ⟨2024, 1, 31, 0, 0, 0, 0, 0⟩ ⟨0, 2, 0, 0, 0, 0, 0, 0⟩ = full ⟨2024, 3, 31, 0, 0, 0⟩ ∧
    op 0 (op 0 ⟨2024, 1, 31, 0, 0, 0, 0, 0⟩ ⟨0, 11, 0, 0, 0, 0, 0, 0⟩) ⟨0, 2, 0, 0, 0, 0, 0, 0⟩ =
      op 0 ⟨2024, 1, 31, 0, 0, 0, 0, 0⟩ ⟨0, 13, 0, 0, 0, 0, 0, 0⟩ := by decide +kernel

end Vita
