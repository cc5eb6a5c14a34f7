import Verif.Props.DateText
/-!
# Property C89: the time of the clock
-/

namespace Vita
open Out DT Spec

/-- The seconds of a point of time of the years 1000 to 9999. -/
def FourDigits (secs : Int) : Prop :=
  (⟨1000, 1, 1, 0, 0, 0⟩ : Civil).secs ≤ secs ∧ secs < (⟨10000, 1, 1, 0, 0, 0⟩ : Civil).secs

instance (s : Int) : Decidable (FourDigits s) := inferInstanceAs (Decidable (_ ∧ _))

/-- **C89.** In every zone, with or without summer time, and for every value of the clock in the years 1000 to 9999, `vt_datetime_get_now` returns the date and time
of day that clocks in the zone show, with the right week day and day of year, and the text functions write exactly this in the
documented formats. -/
theorem C89_now (E : Env) (zn : Zone) (clock : Int) (h : FourDigits (clock + zn.offset clock)) :
    ∃ c : Civil, c.Valid ∧ c.secs = clock + zn.offset clock ∧
      getNow zn clock = .ok ⟨c.year, c.month, c.day, c.hour, c.minute, c.second, c.weekDay, c.yearDay⟩ ∧
      ∀ (buf : Mem) (len : Nat), 26 ≤ len → len < 2 ^ 64 → len ≤ buf.length →
        getNowText E zn clock buf len =
          .ok ((stamp [45] [32] [58] c.year.toNat c.month c.day c.hour c.minute c.second).map some ++ some 0 :: buf.drop 20) ∧
        ∃ rest, getNowPretty E zn clock buf len =
          .ok ((prettyStamp c.year.toNat c.month c.day c.hour c.minute c.second c.weekDay.toNat).map some ++ some 0 :: rest) ∧
          rest.length = buf.length - 25 := by
  obtain ⟨c, hv, hs⟩ := exists_civil (clock + zn.offset clock)
  refine ⟨c, hv, hs, ?_⟩
  obtain ⟨g1, g2⟩ := h
  rw [← hs] at g1 g2
  have e1 := secs_lt_year hv 1000
  have e2 := (secs_lt_year hv 10000).1 g2
  have e3 : ¬ c.year < 1000 := fun g => absurd (e1.2 g) (by omega)
  generalize hd : (⟨c.year, c.month, c.day, c.hour, c.minute, c.second, c.weekDay, c.yearDay⟩ : VDT) = d
  have hh : Holds d c := by rw [← hd]; exact ⟨rfl, rfl, rfl, rfl, rfl, rfl⟩
  have hr : fromSecs zn clock = .ok d := by rw [← hd]; exact fromSecs_full hv ⟨by omega, by omega⟩ hs
  have hb := brokenDown_eq hv (zn.offset clock)
  rw [show c.secs - zn.offset clock = clock by omega] at hb
  have hlt : localtime zn clock = .ok ⟨c.year - 1900, c.month - 1, c.day, c.hour, c.minute, c.second, (c.days + 4) % 7, c.yearDay - 1⟩ := by
    simp only [localtime, hb]
    rw [if_pos (by constructor <;> omega)]
  have hg : getNow zn clock = .ok d := hr
  have htv : tmToVdt ⟨c.year - 1900, c.month - 1, c.day, c.hour, c.minute, c.second, (c.days + 4) % 7, c.yearDay - 1⟩ = d := by
    unfold getNow at hg
    rw [hlt, bind_ok] at hg
    exact Out.ok.inj hg
  have hp := printable_of_valid hh hv ⟨by omega, by omega⟩
  refine ⟨hg, fun buf len hl hsz hb => ⟨?_, ?_⟩⟩
  · have h1 := (C53_text (E := E) hp hl hb).1
    unfold getNowText
    rw [hlt, decide_eq_true (show len ≥ 26 from hl), dassert_true, bind_ok, bind_ok, ← h1]
    unfold toText toTextFmt
    rw [decide_eq_true (show len ≥ 26 from hl), dassert_true, bind_ok]
    have hf : fmtAll (⟨c.year - 1900, c.month - 1, c.day, c.hour, c.minute, c.second, (c.days + 4) % 7, c.yearDay - 1⟩ : Tm) fmtText =
        fmtAll (vdtToTm d) fmtText := by
      rw [← hd]
      simp only [vdtToTm, fmtAll, fmtText, fmtPiece, minYear]
      rw [if_pos (show c.year ≠ 0 by omega)]
    unfold strftime
    rw [hf]
  · have hw : 1 ≤ c.weekDay ∧ c.weekDay ≤ 7 := by unfold Civil.weekDay; omega
    obtain ⟨rest, h1, -, h2⟩ := C72_pretty (E := E) hp (wd := c.weekDay.toNat) (by rw [← hd]; simp only; omega) (by omega) (by omega) hl hsz hb
    refine ⟨rest, ?_, h2⟩
    unfold getNowPretty
    rw [hlt, decide_eq_true (show len ≥ 26 from hl), dassert_true, bind_ok, bind_ok, htv, h1]

/-- **C89, short buffers.** A length below 26 is rejected in debug builds. -/
theorem C89_short_buffer {E : Env} (hd : E.debug = true) (zn : Zone) (clock : Int) (buf : Mem) {len : Nat} (hl : len < 26) :
    getNowText E zn clock buf len = .exit .dbgAssert ∧ getNowPretty E zn clock buf len = .exit .dbgAssert := by
  unfold getNowText getNowPretty
  rw [decide_eq_false (show ¬ len ≥ 26 by omega), dassert_false hd, bind_exit, bind_exit]
  exact ⟨rfl, rfl⟩

/-- Example: a clock meeting the hypothesis, one hour east of Greenwich. -/
example : FourDigits (1794817205 + 3600) ∧ getNow 3600 1794817205 = .ok ⟨2026, 11, 16, 9, 20, 5, 1, 320⟩ ∧
    getNowPretty exE 3600 1794817205 (List.replicate 26 none) 26 = .ok ((chars "Mon Nov 16 09:20:05 2026").map some ++ [some 0, some 0]) := by
  decide +kernel

end Vita
