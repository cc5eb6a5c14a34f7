import Verif.Props.Log
import Verif.Props.Lines
import Verif.Props.Conv
/-!
# C141: a log file read back
-/

namespace Vita
open Out Spec Fs

/-- A text without line ends and without zero bytes. -/
def OneLine (t : Text) : Prop := 10 ∉ t ∧ 0 ∉ t

/-- All texts of the message are of one line. -/
def PlainMsg (m : Log.Msg) : Prop := OneLine m.now ∧ (∀ e, m.zexpr = some e → OneLine e) ∧ OneLine m.file ∧ OneLine m.body

namespace Spec

/-- The lines, without their ends, that are due in the file at `p`. -/
def loggedAt (w : World) (p : Fs.Path) (es : List (Option Text × Text)) : List Text :=
  (es.filter fun e => (e.1.bind fun t => resolve w true t) == some p).map (·.2.dropLast)

end Spec

theorem logRun_keeps {dbg : Bool} : ∀ {cs : List Log.Call} {s s' : Log.St} {b : Bool}, Log.run dbg s cs = .ok (s', b) →
    (∀ f u, resolve s'.world f u = resolve s.world f u) ∧ s'.world.readable = s.world.readable := by
  intro cs
  induction cs with
  | nil =>
    intro s s' b h
    injection h with h
    injection h with h1 h2
    subst h1
    exact ⟨fun _ _ => rfl, rfl⟩
  | cons c cs ih =>
    intro s s' b h
    rw [Log.run, bind_eq_ok] at h
    obtain ⟨⟨s1, b1⟩, h1, h2⟩ := h
    have step : (∀ f u, resolve s1.world f u = resolve s.world f u) ∧ s1.world.readable = s.world.readable := by
      cases c with
      | level l z =>
        simp only [Log.run1, Log.redirectLevel, bind_eq_ok] at h1
        obtain ⟨a, ⟨m, -, e⟩, e2⟩ := h1
        injection e with e
        injection e2 with e2
        injection e2 with e2
        subst e; subst e2
        exact ⟨fun _ _ => rfl, rfl⟩
      | all z =>
        simp only [Log.run1, Log.redirectAll, bind_eq_ok] at h1
        obtain ⟨a, e, e2⟩ := h1
        injection e2 with e2
        injection e2 with e2
        subst e2
        have : ∀ (ls : List Log.Level) (s a : Log.St), Log.redirectLoop z ls s = .ok a → a.world = s.world := by
          intro ls
          induction ls with
          | nil => intro s a h; injection h with h; rw [h]
          | cons l ls ih2 =>
            intro s a h
            rw [Log.redirectLoop, bind_eq_ok] at h
            obtain ⟨m, -, h⟩ := h
            exact ih2 { s with names := fun l' => if l' = l then m else s.names l' } a h
        rw [this _ _ _ e]
        exact ⟨fun _ _ => rfl, rfl⟩
      | log z l x m =>
        rw [Log.run1, Log.log] at h1
        cases x with
        | true =>
          injection h1 with h1
          injection h1 with h1
          subst h1
          exact ⟨fun _ _ => rfl, rfl⟩
        | false =>
          simp only [Bool.not_false, if_true, bind_eq_ok] at h1
          obtain ⟨t, -, h1⟩ := h1
          split at h1
          · injection h1 with h1
            injection h1 with h1
            subst h1
            exact ⟨fun _ _ => rfl, rfl⟩
          · cases ho : openW s.world true t with
            | none =>
              rw [ho] at h1
              cases dbg with
              | true => simp at h1
              | false =>
                simp only [Bool.false_eq_true, if_false] at h1
                injection h1 with h1
                injection h1 with h1
                subst h1
                exact ⟨fun _ _ => rfl, rfl⟩
            | some x =>
              obtain ⟨w1, p⟩ := x
              rw [ho] at h1
              injection h1 with h1
              injection h1 with h1
              subst h1
              obtain ⟨-, hp0, hw, hk⟩ := openW_wrote ho
              have hW := put_kept hw hp0 (Log.text l m)
              exact ⟨fun f u => resolve_rewritten (hW.rewritten hk) f u, hW.readable⟩
    dsimp only at h2
    cases b1 with
    | true =>
      rw [if_pos rfl] at h2
      injection h2 with h2
      injection h2 with h2
      subst h2
      exact step
    | false =>
      rw [if_neg (by simp)] at h2
      obtain ⟨g1, g2⟩ := ih h2
      exact ⟨fun f u => (g1 f u).trans (step.1 f u), g2.trans step.2⟩

theorem logLine_ends (l : Log.Level) (m : Log.Msg) : logLine l m = (logLine l m).dropLast ++ [10] := by
  have h6 : chars' "\n" = [10] := by decide +kernel
  rw [logLine, h6, List.dropLast_concat]

theorem numeral_oneLine (n : Nat) : OneLine (numeral n) := by
  have : ∀ c ∈ numeral n, IsDigit c := numeral_digit
  exact ⟨fun h => absurd (this _ h) (by decide), fun h => absurd (this _ h) (by decide)⟩

theorem OneLine.append {a b : Text} (ha : OneLine a) (hb : OneLine b) : OneLine (a ++ b) :=
  ⟨fun h => (List.mem_append.1 h).elim ha.1 hb.1, fun h => (List.mem_append.1 h).elim ha.2 hb.2⟩

theorem logLine_plain (l : Log.Level) {m : Log.Msg} (h : PlainMsg m) : OneLine (logLine l m).dropLast ∧ (logLine l m).dropLast ≠ [] := by
  have h1 : chars' " " = [32] := by decide +kernel
  have h2 : chars' "[" = [91] := by decide +kernel
  have h3 : chars' "] " = [93, 32] := by decide +kernel
  have h4 : chars' ":" = [58] := by decide +kernel
  have h5 : chars' ": " = [58, 32] := by decide +kernel
  have h6 : chars' "\n" = [10] := by decide +kernel
  have h7 : OneLine (levelText l) := by cases l <;> (unfold OneLine; decide +kernel)
  obtain ⟨a, b, c, d⟩ := h
  have s1 : OneLine [32] := by unfold OneLine; decide
  have s2 : OneLine [91] := by unfold OneLine; decide
  have s3 : OneLine [93, 32] := by unfold OneLine; decide
  have s4 : OneLine [58] := by unfold OneLine; decide
  have s5 : OneLine [58, 32] := by unfold OneLine; decide
  rw [logLine, h1, h2, h3, h4, h5, h6, List.dropLast_concat]
  refine ⟨?_, by simp⟩
  refine (((((((a.append s1).append h7).append s1).append ?_).append c).append s4).append (numeral_oneLine _)).append s5 |>.append d
  cases hz : m.zexpr with
  | none => unfold OneLine; simp
  | some e => exact (s2.append (b e hz)).append s3

/-- What `emits` yields are lines of messages. -/
theorem emits_lines {cs : List Log.Call} : ∀ {past : List Log.Call} {e : Option Text × Text}, e ∈ emits past cs → ∃ z l m, Log.Call.log z l false m ∈ cs ∧ e.2 = logLine l m := by
  induction cs with
  | nil => intro past e h; cases h
  | cons c cs ih =>
    intro past e h
    have up : (∃ z l m, Log.Call.log z l false m ∈ cs ∧ e.2 = logLine l m) → ∃ z l m, Log.Call.log z l false m ∈ c :: cs ∧ e.2 = logLine l m :=
      fun ⟨z, l, m, h1, h2⟩ => ⟨z, l, m, List.mem_cons_of_mem _ h1, h2⟩
    cases c with
    | level l z => exact up (ih h)
    | all z => exact up (ih h)
    | log z l x m =>
      cases x with
      | true => exact up (ih h)
      | false =>
        rw [emits] at h
        rcases List.mem_cons.1 h with h | h
        · exact ⟨z, l, m, by simp, by rw [h]⟩
        · split at h
          · cases h
          · exact up (ih h)

theorem filePart_text (w : World) (p : Fs.Path) : ∀ (es : List (Option Text × Text)), (∀ e ∈ es, e.2 = e.2.dropLast ++ [10]) →
    ((filePart w es).flatMap fun x => if x.1 = p then x.2.2 else []) = (loggedAt w p es).flatMap (· ++ [10]) := by
  intro es
  induction es with
  | nil => intro _; rfl
  | cons e es ih =>
    intro h
    have ih' := ih fun e he => h e (by simp [he])
    have h1 := h e (by simp)
    cases hx : e.1.bind fun t => resolve w true t with
    | none =>
      have e1 : filePart w (e :: es) = filePart w es := by
        cases ht : e.1 with
        | none => simp [filePart, ht]
        | some t => rw [ht] at hx; simp only [Option.bind_some] at hx; simp [filePart, ht, hx]
      rw [e1, ih']
      simp [loggedAt, hx]
    | some q =>
      have e1 : filePart w (e :: es) = (q, true, e.2) :: filePart w es := by
        cases ht : e.1 with
        | none => rw [ht] at hx; cases hx
        | some t => rw [ht] at hx; simp only [Option.bind_some] at hx; simp [filePart, ht, hx]
      rw [e1, List.flatMap_cons, ih']
      by_cases hq : q = p
      · have e2 : loggedAt w p (e :: es) = e.2.dropLast :: loggedAt w p es := by simp [loggedAt, hx, hq]
        rw [e2, List.flatMap_cons, ← h1]
        simp [hq]
      · have e2 : loggedAt w p (e :: es) = loggedAt w p es := by simp [loggedAt, hx, hq]
        rw [e2]
        simp [hq]

/-- **C141.** Any calls of the logging functions since the start of the program, whose messages are of one line each, and all of whose files can be opened.
For every file that was missing or empty before and can become long enough: if lines are due there, then reading the file with `vt_file_read` and splitting at
the ends of the lines yields these lines, one string for each message, in the order of the calls, also if the last one has ended the program. -/
theorem C141_log_lines {E : Env} {dbg : Bool} {cs : List Log.Call} {w : World} {err : Text} (hg : ∀ c ∈ cs, GoodCall c)
    (ho : ∀ e ∈ emits [] cs, ∀ t, e.1 = some t → Openable w t) (hm : ∀ z l m, Log.Call.log z l false m ∈ cs → PlainMsg m)
    {s' : Log.St} {b : Bool} (he : Log.run dbg ⟨Log.initNames, w, err⟩ cs = .ok (s', b))
    {z : Mem} {t : Text} (hz : CStr z t) {p : Fs.Path} (hp : resolve w true t = some p) (hl : t.getLast? ≠ some 47) (hrd : w.readable p = true)
    (hro : w.room p = none) (h0 : dataOf (kind w p) = []) (hne : loggedAt w p (emits [] cs) ≠ [])
    (hlen : ((loggedAt w p (emits [] cs)).flatMap (· ++ [10])).length < 2 ^ 63) {k : Nat}
    (hk : ((loggedAt w p (emits [] cs)).flatMap (· ++ [10])).length < k) :
    OkOr E (((loggedAt w p (emits [] cs)).flatMap (· ++ [10])).length + 56) (readLines E k s'.world z) fun o =>
      ∃ l, o = some l ∧ List.Forall₂ IsStr l (loggedAt w p (emits [] cs)) := by
  obtain ⟨s1, b1, e1, -, hkind, -⟩ := C66_history_partial (dbg := dbg) (err := err) hg ho
  rw [he] at e1
  injection e1 with e1
  injection e1 with e1 e2
  subst e1
  obtain ⟨hres, hread⟩ := logRun_keeps he
  have hends : ∀ e ∈ emits [] cs, e.2 = e.2.dropLast ++ [10] := by
    intro e hh
    obtain ⟨z, l, m, -, e2⟩ := emits_lines hh
    rw [e2]
    exact logLine_ends l m
  have hplain : ∀ s ∈ loggedAt w p (emits [] cs), OneLine s ∧ s ≠ [] := by
    intro s hs
    obtain ⟨e, hh, rfl⟩ := List.mem_map.1 hs
    obtain ⟨z, l, m, hmem, e2⟩ := emits_lines (List.mem_of_mem_filter hh)
    rw [e2]
    exact logLine_plain l (hm z l m hmem)
  have hthere : ∃ x ∈ filePart w (emits [] cs), x.1 = p := by
    obtain ⟨s, hs⟩ := List.exists_mem_of_ne_nil _ hne
    obtain ⟨e, hh, -⟩ := List.mem_map.1 hs
    obtain ⟨h1, h2⟩ := List.mem_filter.1 hh
    have h2' : (e.1.bind fun t => resolve w true t) = some p := by simpa using h2
    refine ⟨(p, true, e.2), ?_, rfl⟩
    refine List.mem_filterMap.2 ⟨e, h1, ?_⟩
    cases ht : e.1 with
    | none => rw [ht] at h2'; cases h2'
    | some u =>
      rw [ht, Option.bind_some] at h2'
      simp [h2']
  have hfile : kind s'.world p = some (.file ((loggedAt w p (emits [] cs)).flatMap (· ++ [10]))) := by
    rw [hkind, fileKept_ends _ _ _ _ (by
      intro x hx
      obtain ⟨e, -, hh⟩ := List.mem_filterMap.1 hx
      cases ht : e.1 with
      | none => rw [ht] at hh; cases hh
      | some u =>
        rw [ht, Option.bind_some, Option.map_eq_some_iff] at hh
        obtain ⟨q, -, rfl⟩ := hh
        rfl) hthere, hro, h0, filePart_text w p _ hends]
    simp [kept]
  have hz0 : 0 ∉ (loggedAt w p (emits [] cs)).flatMap (· ++ [10]) := by
    intro hh
    obtain ⟨s, hs, hh⟩ := List.mem_flatMap.1 hh
    rcases List.mem_append.1 hh with hh | hh
    · exact (hplain s hs).1.2 hh
    · simp at hh
  refine (C64_read_partial (E := E) (w := s'.world) hz (by rw [hres]; exact hp) hfile hl (by rw [hread]; exact hrd) (Or.inl ?_) hlen).bind ?_
  · cases hx : loggedAt w p (emits [] cs) with
    | nil => exact absurd hx hne
    | cons a l => simp
  · rintro r ⟨v, rfl, -, hv⟩
    have hpc := lines_pieces fun s hs => (hplain s hs).1.1
    have hsp := C29_split_partial (E := E) (hv hz0) (sep := zstr [10]) (ss := [10]) ⟨by decide +kernel, by decide +kernel⟩ (by simp) (newline_occurs hne) (by
      rw [hpc]
      rintro ⟨l, e⟩
      rw [show l ++ [[], []] = (l ++ [[]]) ++ [[]] by simp] at e
      have e2 := List.append_cancel_right e
      exact (hplain [] (by rw [← e2]; simp)).2 rfl) hk
    refine hsp.mono ?_
    rintro o ⟨l, rfl, hl⟩
    refine ⟨l, rfl, ?_⟩
    rw [hpc] at hl
    have e3 : (loggedAt w p (emits [] cs)).filter (· ≠ []) = loggedAt w p (emits [] cs) :=
      List.filter_eq_self.2 fun s hs => by simpa using (hplain s hs).2
    rw [← e3]
    simpa using hl

/-! The level `warn` goes to `/l`, the others to `stderr`; the second call has a true condition; the last ends the program. -/

/-- A message for the examples. -/
def exLogMsg (b : String) : Log.Msg := { now := chars' "9:30", zexpr := none, file := chars' "a.c", line := 7, body := chars' b }

/-- Calls for the examples. -/
def exLogCalls : List Log.Call := [.level .warn (some (zstr (chars' "/l"))), .log none .warn false (exLogMsg "x"), .log none .warn true (exLogMsg "y"),
  .log none .info false (exLogMsg "z"), .log (some (zstr (chars' "/l"))) .fatal false (exLogMsg "end"), .log none .warn false (exLogMsg "no")]

example : loggedAt { nodes := [] } [[108]] (emits [] exLogCalls) = [chars' "9:30  WARN a.c:7: x", chars' "9:30 FATAL a.c:7: end"] := by decide +kernel

example : (do
    let r ← Log.run true ⟨Log.initNames, { nodes := [] }, []⟩ exLogCalls
    readLines exE 100 r.1.world (zstr (chars' "/l"))).mapOk (Option.map (List.map fun (a : Arr) => a.mem.take a.len)) =
    .ok (some [(chars' "9:30  WARN a.c:7: x").map some, (chars' "9:30 FATAL a.c:7: end").map some]) := by decide +kernel

end Vita
