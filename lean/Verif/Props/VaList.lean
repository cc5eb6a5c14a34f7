import Verif.Model.VaList
/-!
# Variable arguments are read and ended properly (C135)
-/

namespace Vita
open Spec VaEvent

theorem vaRun_cons {n : Nat} {s : Nat → VaState} {e : VaEvent} {es : List VaEvent} :
    vaRun n s (e :: es) = (vaStep n s e).bind fun x => (vaRun n x.1 es).map fun y => (y.1, x.2 ++ y.2) := by
  rw [vaRun]
  cases vaStep n s e with
  | none => rfl
  | some x =>
    simp only [Option.bind_eq_bind, Option.bind_some]
    cases vaRun n x.1 es <;> rfl

theorem vaRun_append {n : Nat} (es fs : List VaEvent) : ∀ s : Nat → VaState,
    vaRun n s (es ++ fs) = (vaRun n s es).bind fun x => (vaRun n x.1 fs).map fun y => (y.1, x.2 ++ y.2) := by
  induction es with
  | nil =>
    intro s
    rw [List.nil_append, vaRun, Option.bind_some]
    cases vaRun n s fs <;> rfl
  | cons e es ih =>
    intro s
    rw [List.cons_append, vaRun_cons, vaRun_cons]
    cases vaStep n s e with
    | none => rfl
    | some x =>
      simp only [Option.bind_some, ih]
      cases vaRun n x.1 es with
      | none => rfl
      | some y =>
        simp only [Option.bind_some, Option.map_some]
        cases vaRun n y.1 fs <;> simp

/-- **C135.** The functions that print: with as many arguments as the format asks for, they read them once, from the first on, and end their list, whatever the conditions; `vt_log` does so
unless it is to write to a file that cannot be opened. -/
theorem C135_printing_partial {n c : Nat} (h : c ≤ n) :
    (∀ expr on quits, VaReads n (VaList.debugAssert expr on quits c) (if !expr && on then [0] else [])) ∧
    (∀ on, VaReads n (VaList.debugPrintf on c) (if on then [0] else [])) ∧
    (∀ opens, VaReads n (VaList.fileWritef opens c) (if opens then [0] else [])) ∧
    (∀ expr opens, (expr = true ∨ opens = true) → VaReads n (VaList.log expr opens c) (if expr then [] else [0])) := by
  refine ⟨?_, ?_, ?_, ?_⟩
  · intro expr on quits
    cases expr <;> cases on <;> cases quits <;> simp [VaList.debugAssert, VaReads, vaRun, vaStep, setVa, h]
  · intro on
    cases on <;> simp [VaList.debugPrintf, VaReads, vaRun, vaStep, setVa, h]
  · intro opens
    cases opens <;> simp [VaList.fileWritef, VaReads, vaRun, vaStep, setVa, h]
  · intro expr opens ho
    cases expr <;> cases opens <;> simp_all [VaList.log, VaReads, vaRun, vaStep, setVa]

/-- **C135** (counterexample) `vt_log` returns without ending its list if the file cannot be opened: undefined, whatever it is called with. -/
theorem C135_log_unopenable (n c : Nat) (ps : List Nat) : ¬ VaReads n (VaList.log false false c) ps := by
  rintro ⟨s, h⟩
  simp [VaList.log, vaRun, vaStep, setVa] at h

/-- **C135.** `vt_str_appendf` is defined exactly if the text can be formatted; it reads the arguments twice, both times from the first on, so the text measured is the text written. -/
theorem C135_appendf {n c : Nat} (h : c ≤ n) (r : Int) (ps : List Nat) : VaReads n (VaList.appendf r c) ps ↔ 0 ≤ r ∧ ps = [0, 0] := by
  by_cases hr : r < 0
  · have : ¬ 0 ≤ r := by omega
    simp [VaList.appendf, VaList.vfmt, VaReads, vaRun, vaStep, setVa, h, hr, this]
  · have : 0 ≤ r := by omega
    simp [VaList.appendf, VaList.vfmt, VaReads, vaRun, vaStep, setVa, h, hr, this, eq_comm]

/-- **C135.** `vt_str_insertf` is defined exactly if the text can be formatted, the second time as well if it is long; it reads the arguments two times or, if the text is
long, three times, always from the first on. -/
theorem C135_insertf {n c : Nat} (h : c ≤ n) (r r' : Int) (ps : List Nat) :
    VaReads n (VaList.insertf r r' c) ps ↔ (0 ≤ r ∧ r < 1023 ∧ ps = [0, 0]) ∨ (1023 ≤ r ∧ -1 ≤ r' ∧ ps = [0, 0, 0]) := by
  by_cases hr : r < 0
  · have h1 : ¬ 0 ≤ r := by omega
    have h2 : ¬ 1023 ≤ r := by omega
    simp [VaList.insertf, VaList.vfmt, VaReads, vaRun, vaStep, setVa, h, hr, h1, h2]
  · have h1 : 0 ≤ r := by omega
    by_cases hl : r < 1023
    · have h2 : ¬ 1023 ≤ r := by omega
      simp [VaList.insertf, VaList.vfmt, VaReads, vaRun, vaStep, setVa, h, hr, h1, h2, hl, tmpBufferSize, eq_comm]
    · have h2 : 1023 ≤ r := by omega
      by_cases hr' : r' + 1 < 0
      · have h3 : ¬ -1 ≤ r' := by omega
        simp [VaList.insertf, VaList.vfmt, VaReads, vaRun, vaStep, setVa, h, hr, h1, h2, hl, tmpBufferSize, hr', h3]
      · have h3 : -1 ≤ r' := by omega
        simp [VaList.insertf, VaList.vfmt, VaReads, vaRun, vaStep, setVa, h, hr, h1, h2, hl, tmpBufferSize, hr', h3, eq_comm]

/-- **C135** (counterexamples) `vt_str_appendf` and `vt_str_insertf` return without ending their lists if the text cannot be formatted: undefined instead of the status of a failure. -/
theorem C135_format_failure {n c : Nat} (h : c ≤ n) {r : Int} (hr : r < 0) (r' : Int) (ps : List Nat) :
    ¬ VaReads n (VaList.appendf r c) ps ∧ ¬ VaReads n (VaList.insertf r r' c) ps := by
  rw [C135_appendf h, C135_insertf h]
  omega

theorem vaRun_args {n : Nat} : ∀ (m k : Nat) (s : Nat → VaState), s 0 = .next k →
    vaRun n s (List.replicate m (arg 0)) = if m = 0 ∨ k + m ≤ n then some ((if m = 0 then s else setVa s 0 (.next (k + m))), List.range' k m) else none
  | 0, k, s, h => by simp [vaRun]
  | m + 1, k, s, h => by
    rw [List.replicate_succ, vaRun_cons]
    simp only [vaStep, h]
    by_cases hk : k < n
    · rw [if_pos hk, Option.bind_some, vaRun_args m (k + 1) _ (by simp [setVa])]
      by_cases hm : m = 0
      · subst hm
        simp [hk]
        omega
      · by_cases hn : k + (m + 1) ≤ n
        · rw [if_pos (show m = 0 ∨ k + 1 + m ≤ n from .inr (by omega)), if_pos (show m + 1 = 0 ∨ k + (m + 1) ≤ n from .inr hn), if_neg hm,
            if_neg (show ¬ m + 1 = 0 by omega)]
          simp only [Option.map_some, List.range'_succ, List.cons_append, List.nil_append, Option.some.injEq, Prod.mk.injEq, and_true]
          funext j
          simp only [setVa]
          split <;> simp <;> omega
        · rw [if_neg (show ¬ (m = 0 ∨ k + 1 + m ≤ n) by omega), if_neg (show ¬ (m + 1 = 0 ∨ k + (m + 1) ≤ n) by omega)]
          rfl
    · rw [if_neg hk, if_neg (by omega)]
      rfl

/-- **C135.** `vt_path_build_n` and `vt_str_join_n` read the number of arguments they are told, each once and in order; that is defined exactly if that many were passed. -/
theorem C135_counted (passed n : Nat) (ps : List Nat) : VaReads passed (VaList.readArgs n) ps ↔ n ≤ passed ∧ ps = List.range n := by
  unfold VaReads VaList.readArgs
  rw [List.cons_append, vaRun_cons]
  simp only [vaStep, if_true, Option.bind_some]
  rw [vaRun_append, vaRun_args n 0 _ (by simp [setVa])]
  by_cases hn : n = 0
  · subst hn
    simp [vaRun, vaStep, setVa, eq_comm]
  · by_cases hp : n ≤ passed
    · rw [if_pos (.inr (by omega)), if_neg hn]
      simp [vaRun, vaStep, setVa, hp, List.range_eq_range', eq_comm]
    · rw [if_neg (by omega)]
      simp [hp]

-- Three arguments for a format that asks for two.
example : VaReads 3 (VaList.appendf 20 2) [0, 0] ∧ VaReads 3 (VaList.insertf 5000 5000 2) [0, 0, 0] ∧ ¬ VaReads 3 (VaList.appendf 20 4) [0, 0] ∧
    VaReads 3 (VaList.readArgs 3) [0, 1, 2] :=
  ⟨(C135_appendf (by decide) _ _).2 (by decide), (C135_insertf (by decide) _ _ _).2 (by decide), by
    rintro ⟨s, h⟩
    simp [VaList.appendf, VaList.vfmt, vaRun, vaStep, setVa] at h, (C135_counted _ _ _).2 (by decide)⟩

end Vita
