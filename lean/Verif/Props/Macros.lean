import Verif.Model.Macros
import Verif.Props.MalPrint
import Verif.Props.Log
/-!
# C114: the version text says what the version numbers say; C115: the check and log macros
-/

namespace Vita
open Out Spec Fs

namespace Spec

/-- A version as people write it. -/
def dotted (major minor patch : Nat) : Text := numeral major ++ chars' "." ++ numeral minor ++ chars' "." ++ numeral patch

/-- The file name in a path: what is behind the last separator, or everything if there is none. -/
def IsFileName (path name : Text) : Prop := 47 ∉ name ∧ (path = name ∨ ∃ dir, path = dir ++ 47 :: name)

end Spec

/-! ### C114 -/

theorem dot_chars : chars' "." = [46] := by decide +kernel

theorem macro_digit {c : UInt8} (h : IsDigit c) : Macro.digit c = true := by
  obtain ⟨h1, h2⟩ := h
  unfold Macro.digit
  simp only [Bool.and_eq_true, decide_eq_true_eq, UInt8.le_iff_toNat_le]
  exact ⟨h1, h2⟩

theorem ppTail_append (a b : Text) : Macro.ppTail (a ++ b) = (Macro.ppTail a && Macro.ppTail b) := by
  simp [Macro.ppTail]

theorem ppTail_numeral (n : Nat) : Macro.ppTail (numeral n) = true := by
  unfold Macro.ppTail
  rw [List.all_eq_true]
  intro c hc
  simp [macro_digit (numeral_digit c hc)]

theorem ppNumber_numeral (n : Nat) {t : Text} (h : Macro.ppTail t = true) : Macro.ppNumber (numeral n ++ t) = true := by
  cases e : numeral n with
  | nil => exact absurd e (numeral_ne_nil n)
  | cons c u =>
    have hd : IsDigit c := numeral_digit c (by rw [e]; simp)
    have ht : Macro.ppTail u = true := by
      have := ppTail_numeral n
      rw [e] at this
      unfold Macro.ppTail at this ⊢
      rw [List.all_cons, Bool.and_eq_true] at this
      exact this.2
    have h46 : c ≠ 46 := by rintro rfl; exact absurd hd.1 (by decide)
    have e2 : Macro.ppNumber (c :: (u ++ t)) = (Macro.digit c && Macro.ppTail (u ++ t)) := by
      unfold Macro.ppNumber
      split
      · exact absurd ‹_› (by simp)
      · rename_i e3; exact absurd (List.cons.inj e3).1 h46
      · rename_i e3; rw [(List.cons.inj e3).1, (List.cons.inj e3).2]
    rw [List.cons_append, e2, macro_digit hd, ppTail_append, ht, h]
    rfl

theorem versionText_dotted (a b c : Nat) : Macro.versionText (numeral a) (numeral b) (numeral c) = .ok (dotted a b c) := by
  have hd : Macro.ppTail [46] = true := by decide
  have hb := ppTail_numeral b
  have hc := ppTail_numeral c
  unfold Macro.versionText Macro.pcat dotted
  rw [dot_chars, if_pos (ppNumber_numeral a hd)]
  simp only [bind_ok]
  rw [if_pos (by rw [List.append_assoc]; exact ppNumber_numeral a (by rw [ppTail_append, hd, hb]; rfl))]
  simp only [bind_ok]
  rw [if_pos (by simp only [List.append_assoc]; exact ppNumber_numeral a (by simp only [ppTail_append, hd, hb]; rfl))]
  simp only [bind_ok]
  rw [if_pos (by simp only [List.append_assoc]; exact ppNumber_numeral a (by simp only [ppTail_append, hd, hb, hc]; rfl))]

/-- **C114.** The version text of the compiler is its three numbers with points between them, whatever they are; the fields of the struct hold the numbers
exactly if they are below 256. -/
theorem C114_compiler (a b c : Nat) : ∃ v, Macro.compilerVersion a b c = .ok v ∧ v.str = dotted a b c ∧ (v.major.toNat = a ↔ a < 256) ∧
    (v.minor.toNat = b ↔ b < 256) ∧ (v.patch.toNat = c ↔ c < 256) := by
  refine ⟨_, by unfold Macro.compilerVersion; rw [versionText_dotted, bind_ok], rfl, ?_, ?_, ?_⟩ <;>
  · simp only [UInt8.toNat_ofNat']
    omega

/-- **C114.** The version of the library: text and fields agree. -/
theorem C114_vita : ∃ v, Macro.vitaVersion = .ok v ∧ v.str = dotted v.major.toNat v.minor.toNat v.patch.toNat :=
  ⟨⟨0, 5, 0, [48, 46, 53, 46, 48]⟩, by decide +kernel, by decide +kernel⟩

theorem digits_dot_inj {a b : Nat} {x y : Text} (h : numeral a ++ 46 :: x = numeral b ++ 46 :: y) : a = b ∧ x = y := by
  have tk : ∀ (n : Nat) (x : Text), (numeral n ++ 46 :: x).takeWhile Macro.digit = numeral n := by
    intro n x
    rw [List.takeWhile_append_of_pos (fun c hc => macro_digit (numeral_digit c hc)), List.takeWhile_cons_of_neg (by decide), List.append_nil]
  have e2 := congrArg (List.takeWhile Macro.digit) h
  rw [tk a x, tk b y] at e2
  have := numeral_inj e2
  subst this
  exact ⟨rfl, (List.cons.inj (List.append_cancel_left h)).2⟩

/-- **C114.** Different versions have different texts. -/
theorem C114_text_determines {a b c a' b' c' : Nat} (h : dotted a b c = dotted a' b' c') : a = a' ∧ b = b' ∧ c = c' := by
  unfold dotted at h
  simp only [dot_chars, List.append_assoc, List.singleton_append] at h
  obtain ⟨h1, h⟩ := digits_dot_inj h
  obtain ⟨h2, h⟩ := digits_dot_inj h
  exact ⟨h1, h2, numeral_inj h⟩

/-- Example: gcc 13.2.0; and a number that does not fit the field. -/
example : Macro.compilerVersion 13 2 0 = .ok ⟨13, 2, 0, chars' "13.2.0"⟩ ∧ Macro.compilerVersion 1500 3 9 = .ok ⟨220, 3, 9, chars' "1500.3.9"⟩ := by
  constructor <;> decide +kernel

/-! ### C115 -/

theorem lastSlash_none {t : Text} : Macro.lastSlash t = none ↔ 47 ∉ t := by
  induction t with
  | nil => simp [Macro.lastSlash]
  | cons c t ih =>
    unfold Macro.lastSlash
    cases h : Macro.lastSlash t with
    | some i =>
      simp only [reduceCtorEq, List.mem_cons, not_or, false_iff, not_and]
      intro _ hn
      rw [ih.2 hn] at h
      cases h
    | none =>
      have := ih.1 h
      by_cases hc : c = 47
      · simp [hc]
      · simp [hc, this, Ne.symm hc]

theorem lastSlash_some : ∀ {t : Text} {i : Nat}, Macro.lastSlash t = some i → t = t.take i ++ 47 :: t.drop (i + 1) ∧ 47 ∉ t.drop (i + 1) := by
  intro t
  induction t with
  | nil => intro i h; cases h
  | cons c t ih =>
    intro i h
    unfold Macro.lastSlash at h
    cases hl : Macro.lastSlash t with
    | some j =>
      rw [hl] at h
      cases h
      obtain ⟨h1, h2⟩ := ih hl
      exact ⟨by simpa using h1, by simpa using h2⟩
    | none =>
      rw [hl] at h
      simp only at h
      by_cases hc : c = 47
      · rw [if_pos hc] at h
        cases h
        exact ⟨by simp [hc], by simpa using lastSlash_none.1 hl⟩
      · rw [if_neg hc] at h
        cases h

theorem isFileName_unique {p a b : Text} (ha : IsFileName p a) (hb : IsFileName p b) : a = b := by
  have key : ∀ {d e a b : Text}, 47 ∉ a → 47 ∉ b → d ++ 47 :: a = e ++ 47 :: b → a = b := by
    intro d e a b ha hb h
    have r := congrArg (List.takeWhile (· ≠ 47) ∘ List.reverse) h
    have tk : ∀ {d a : Text}, 47 ∉ a → (d ++ 47 :: a).reverse.takeWhile (· ≠ 47) = a.reverse := by
      intro d a ha
      rw [List.reverse_append, List.reverse_cons, List.append_assoc,
        List.takeWhile_append_of_pos (fun c hc => by simp only [ne_eq, decide_eq_true_eq]; rintro rfl; exact ha (List.mem_reverse.1 hc)),
        List.singleton_append, List.takeWhile_cons_of_neg (by simp), List.append_nil]
    simp only [Function.comp] at r
    rw [tk ha, tk hb] at r
    exact List.reverse_injective r
  obtain ⟨ha, ha' | ⟨d, ha'⟩⟩ := ha <;> obtain ⟨hb, hb' | ⟨e, hb'⟩⟩ := hb
  · rw [← ha', ← hb']
  · exact absurd (by rw [← ha', hb']; simp) ha
  · exact absurd (by rw [← hb', ha']; simp) hb
  · exact key ha hb (ha'.symm.trans hb')

/-- **C115.** The file named in a report is the last part of the path of the source file. -/
theorem C115_source_filename (p n : Text) : Macro.sourceFilename p = n ↔ IsFileName p n := by
  have h : IsFileName p (Macro.sourceFilename p) := by
    unfold Macro.sourceFilename
    cases hl : Macro.lastSlash p with
    | none => exact ⟨lastSlash_none.1 hl, Or.inl rfl⟩
    | some i => exact ⟨(lastSlash_some hl).2, Or.inr ⟨_, (lastSlash_some hl).1⟩⟩
  exact ⟨fun e => e ▸ h, fun hn => isFileName_unique h hn⟩

namespace Spec
open Macro

/-- The subject of the report, if the macro reports anything in this build. -/
def subject (dbg : Bool) : Use → Option Text
  | .debugAssert e _ => if dbg && !e then some (chars' "DEBUG ASSERTION FAILURE") else none
  | .debugAssertC e _ _ _ _ => if dbg && !e then some (chars' "DEBUG ASSERTION FAILURE") else none
  | .debugPrintf => if dbg then some (chars' "DEBUG INFO") else none
  | .check e _ => if e then none else some (chars' "CHECK FAILURE")
  | .enforce e _ => if e then none else some (chars' "ENFORCE FAILURE")
  | .note => some (chars' "NOTE")
  | .required => some (chars' "REQUIRED")
  | .todo => some (chars' "TODO")
  | .unimplemented => some (chars' "UNIMPLEMENTED")

/-- Does the macro end the program, if it reports? -/
def quits : Use → Bool
  | .debugPrintf | .check .. | .note => false
  | _ => true

/-- The text of the condition in the report. -/
def condition : Use → Text
  | .debugAssert _ t | .debugAssertC _ t _ _ _ | .check _ t | .enforce _ t => t
  | _ => chars' "!"

/-- The place in the report: the file without its directories, the function and the line; or what the macro is given. -/
def place : Use → Site → Text → Text
  | .debugAssertC _ _ file func line, _, _ => file ++ chars' ":" ++ func ++ chars' ":" ++ numeral line
  | _, a, name => name ++ chars' ":" ++ a.func ++ chars' ":" ++ numeral a.line

/-- The report of one use; `name` is the name of the source file. -/
def report (u : Use) (a : Site) (name sub : Text) : Text :=
  match u with
  | .debugPrintf => a.now ++ chars' " " ++ sub ++ chars' " " ++ a.body
  | u => a.now ++ chars' " " ++ sub ++ chars' " [" ++ condition u ++ chars' "] " ++ place u a name ++ chars' ": " ++ a.body ++ chars' "\n"

/-- What uses of the macros one after the other write, and whether they end the program. -/
def reports (dbg : Bool) (name : Text → Text) : List (Use × Site) → Text × Bool
  | [] => ([], false)
  | (u, a) :: us =>
    match subject dbg u with
    | none => reports dbg name us
    | some sub =>
      if quits u then (report u a (name a.path) sub, true)
      else (report u a (name a.path) sub ++ (reports dbg name us).1, (reports dbg name us).2)

end Spec

/-- What one macro does: nothing if it does not report; otherwise it writes its report, and ends the program if it is one that quits. -/
theorem run_expand (dbg : Bool) (s : Debug.St) (hon : s.on = true) (hf : s.filename = none) (he : s.errOpen = true) (u : Macro.Use) (a : Macro.Site)
    (cs : List Debug.Call) :
    Debug.run s (Macro.expand dbg (u, a) ++ cs) =
      match subject dbg u with
      | none => Debug.run s cs
      | some sub =>
        if quits u then .ok ({ s with err := s.err ++ report u a (Macro.sourceFilename a.path) sub }, true)
        else Debug.run { s with err := s.err ++ report u a (Macro.sourceFilename a.path) sub } cs := by
  have em : ∀ t, Debug.emit s t = .ok { s with err := s.err ++ t } := by
    intro t; simp [Debug.emit, hon, hf, Debug.toErr, he]
  have pass : ∀ q m, Debug.run s (.check true q m :: cs) = Debug.run s cs := by
    intro q m; rfl
  have fail : ∀ q m, Debug.run s (.check false q m :: cs) =
      if q then .ok ({ s with err := s.err ++ checkLine m }, true) else Debug.run { s with err := s.err ++ checkLine m } cs := by
    intro q m
    simp only [Debug.run, Debug.run1, Debug.check, Bool.not_false, if_true, em, bind_ok, text_eq_checkLine]
    cases q <;> rfl
  have rep : ∀ (t sub file func : Text) (line : Nat), checkLine ⟨a.now, t, sub, file, func, line, a.body⟩ =
      a.now ++ chars' " " ++ sub ++ chars' " [" ++ t ++ chars' "] " ++ (file ++ chars' ":" ++ func ++ chars' ":" ++ numeral line) ++ chars' ": " ++ a.body ++ chars' "\n" := by
    intros; simp only [checkLine, List.append_assoc]
  have c1 : chars' "DEBUG ASSERTION FAILURE" = [68, 69, 66, 85, 71, 32, 65, 83, 83, 69, 82, 84, 73, 79, 78, 32, 70, 65, 73, 76, 85, 82, 69] := by decide +kernel
  have c2 : chars' "DEBUG INFO" = [68, 69, 66, 85, 71, 32, 73, 78, 70, 79] := by decide +kernel
  have c3 : chars' "CHECK FAILURE" = [67, 72, 69, 67, 75, 32, 70, 65, 73, 76, 85, 82, 69] := by decide +kernel
  have c4 : chars' "ENFORCE FAILURE" = [69, 78, 70, 79, 82, 67, 69, 32, 70, 65, 73, 76, 85, 82, 69] := by decide +kernel
  have c5 : chars' "NOTE" = [78, 79, 84, 69] := by decide +kernel
  have c6 : chars' "REQUIRED" = [82, 69, 81, 85, 73, 82, 69, 68] := by decide +kernel
  have c7 : chars' "TODO" = [84, 79, 68, 79] := by decide +kernel
  have c8 : chars' "UNIMPLEMENTED" = [85, 78, 73, 77, 80, 76, 69, 77, 69, 78, 84, 69, 68] := by decide +kernel
  have c9 : chars' "!" = [33] := by decide +kernel
  cases u with
  | debugAssert e t =>
    cases dbg
    · rfl
    · cases e
      · simp only [Macro.expand, if_true, Macro.assertCall, List.singleton_append, fail, rep, subject, Bool.not_false, Bool.and_self, c1, quits, report, condition, place]
      · rfl
  | debugAssertC e t file func line =>
    cases dbg
    · rfl
    · cases e
      · simp only [Macro.expand, if_true, List.singleton_append, fail, rep, subject, Bool.not_false, Bool.and_self, c1, quits, report, condition, place]
      · rfl
  | debugPrintf =>
    cases dbg
    · rfl
    · simp only [Macro.expand, if_true, List.singleton_append, subject, quits, Bool.false_eq_true, if_false, report, Debug.run, Debug.run1, Debug.printf, em, bind_ok, c2]
      rw [show chars' " " = [32] from by decide +kernel]
  | check e t =>
    cases e
    · simp only [Macro.expand, if_true, Macro.assertCall, List.singleton_append, fail, rep, subject, Bool.false_eq_true, if_false, c3, quits, report, condition, place]
    · rfl
  | enforce e t =>
    cases e
    · simp only [Macro.expand, if_true, Macro.assertCall, List.singleton_append, fail, rep, subject, Bool.false_eq_true, if_false, c4, quits, report, condition, place]
    · rfl
  | note => simp only [Macro.expand, Macro.assertCall, List.singleton_append, fail, rep, subject, Bool.false_eq_true, if_false, c5, c9, quits, report, condition, place]
  | required => simp only [Macro.expand, if_true, Macro.assertCall, List.singleton_append, fail, rep, subject, c6, c9, quits, report, condition, place]
  | todo => simp only [Macro.expand, if_true, Macro.assertCall, List.singleton_append, fail, rep, subject, c7, c9, quits, report, condition, place]
  | unimplemented => simp only [Macro.expand, if_true, Macro.assertCall, List.singleton_append, fail, rep, subject, c8, c9, quits, report, condition, place]

/-- **C115.** Uses of the check macros one after the other, with output to `stderr`: the reports are those documented, in order, up to the first macro that quits. -/
theorem C115_check_macros (dbg : Bool) {name : Text → Text} (hn : ∀ p, IsFileName p (name p)) (us : List (Macro.Use × Macro.Site)) :
    ∀ s : Debug.St, s.on = true → s.filename = none → s.errOpen = true →
      Debug.run s (us.flatMap (Macro.expand dbg)) = .ok ({ s with err := s.err ++ (reports dbg name us).1 }, (reports dbg name us).2) := by
  induction us with
  | nil => intro s _ _ _; simp [Debug.run, reports]
  | cons x us ih =>
    intro s hon hf he
    obtain ⟨u, a⟩ := x
    rw [List.flatMap_cons, run_expand dbg s hon hf he]
    have e : Macro.sourceFilename a.path = name a.path := (C115_source_filename _ _).2 (hn _)
    unfold reports
    cases hs : subject dbg u with
    | none => exact ih s hon hf he
    | some sub =>
      simp only [e]
      cases hq : quits u with
      | true => rfl
      | false =>
        simp only [Bool.false_eq_true, if_false]
        rw [ih { s with err := s.err ++ report u a (name a.path) sub } hon hf he, List.append_assoc]

namespace Spec
open Macro

/-- The level a log macro is named after. -/
def levelOf : LogUse → Log.Level
  | .info => .info
  | .warn => .warn
  | .debug => .debug
  | .error => .error
  | .fatal => .fatal
  | .assert .. => .assert

/-- The line that a log macro writes, if it writes one. -/
def logReport (u : LogUse) (a : Site) (name : Text) : Option Text :=
  match u with
  | .assert true _ => none
  | .assert false t => some (a.now ++ chars' " ASSERT FAILURE [" ++ t ++ chars' "] " ++ name ++ chars' ":" ++ numeral a.line ++ chars' ": " ++ a.body ++ chars' "\n")
  | u => some (a.now ++ chars' " " ++ levelText (levelOf u) ++ chars' " " ++ name ++ chars' ":" ++ numeral a.line ++ chars' ": " ++ a.body ++ chars' "\n")

/-- What log macros one after the other write to `stderr`, and whether they end the program. -/
def logReports (name : Text → Text) : List (LogUse × Site) → Text × Bool
  | [] => ([], false)
  | (u, a) :: us =>
    match logReport u a (name a.path) with
    | none => logReports name us
    | some t =>
      if levelOf u = .fatal ∨ levelOf u = .assert then (t, true)
      else (t ++ (logReports name us).1, (logReports name us).2)

end Spec

theorem run_expandLog (dbg : Bool) (s : Log.St) (h0 : ∀ l, scanZ (s.names l) = .ok []) (u : Macro.LogUse) (a : Macro.Site) (cs : List Log.Call) :
    Log.run dbg s (Macro.expandLog none a u :: cs) =
      match logReport u a (Macro.sourceFilename a.path) with
      | none => Log.run dbg s cs
      | some t =>
        if levelOf u = .fatal ∨ levelOf u = .assert then .ok ({ s with err := s.err ++ t }, true)
        else Log.run dbg { s with err := s.err ++ t } cs := by
  have one : ∀ l m, Log.log dbg s none l false m = .ok ({ s with err := s.err ++ logLine l m }, decide (l = .fatal ∨ l = .assert)) := by
    intro l m
    simp only [Log.log, Bool.not_false, if_true, Option.getD_none, h0 l, bind_ok, text_eq_logLine]
  cases u with
  | assert e t =>
    cases e
    · simp only [Macro.expandLog, Log.run, Log.run1, one, bind_ok, logLine, logReport, levelOf, levelText, or_true, decide_true, if_true]
      rw [show chars' " ASSERT FAILURE [" = chars' " " ++ chars' "ASSERT FAILURE" ++ chars' " " ++ chars' "[" from by decide +kernel]
      simp only [List.append_assoc]
    · rfl
  | _ =>
    simp [Macro.expandLog, Log.run, Log.run1, one, logLine, logReport, levelOf]

/-- **C115.** Uses of the log macros one after the other, none of them redirected: each writes a line with its level, up to the first that ends the program; an
assertion that holds writes nothing. -/
theorem C115_log_macros (dbg : Bool) {name : Text → Text} (hn : ∀ p, IsFileName p (name p)) (us : List (Macro.LogUse × Macro.Site)) :
    ∀ s : Log.St, (∀ l, scanZ (s.names l) = .ok []) →
      Log.run dbg s (us.map fun x => Macro.expandLog none x.2 x.1) =
        .ok ({ s with err := s.err ++ (logReports name us).1 }, (logReports name us).2) := by
  induction us with
  | nil => intro s _; simp [Log.run, logReports]
  | cons x us ih =>
    intro s h0
    obtain ⟨u, a⟩ := x
    rw [List.map_cons, run_expandLog dbg s h0]
    have e : Macro.sourceFilename a.path = name a.path := (C115_source_filename _ _).2 (hn _)
    unfold logReports
    rw [e]
    cases hr : logReport u a (name a.path) with
    | none => exact ih s h0
    | some t =>
      simp only
      by_cases hq : levelOf u = .fatal ∨ levelOf u = .assert
      · simp only [hq, if_true]
      · simp only [hq, if_false]
        rw [ih { s with err := s.err ++ t } h0, List.append_assoc]

/-- Example: at the start of the program nothing is redirected; a path with directories; a failed check, a note and a failed requirement in a release build. -/
example : (∀ l, scanZ (Log.initNames l) = .ok []) ∧ IsFileName (chars' "src/a/b.c") (chars' "b.c") ∧
    reports false (fun _ => chars' "b.c") [(.debugAssert false (chars' "x"), ⟨chars' "T", [], chars' "f", 1, chars' "m"⟩),
      (.check false (chars' "y"), ⟨chars' "T", [], chars' "f", 2, chars' "m"⟩), (.required, ⟨chars' "T", [], chars' "f", 3, chars' "n"⟩),
      (.note, ⟨chars' "T", [], chars' "f", 4, chars' "m"⟩)] =
    (chars' "T CHECK FAILURE [y] b.c:f:2: m\nT REQUIRED [!] b.c:f:3: n\n", true) := by
  refine ⟨fun l => ?_, ⟨by decide +kernel, Or.inr ⟨chars' "src/a", by decide +kernel⟩⟩, by decide +kernel⟩
  unfold Log.initNames Log.pathMax
  rw [show (4096 : Nat) = 4095 + 1 from rfl, List.replicate_succ]
  rfl

end Vita
