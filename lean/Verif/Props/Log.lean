import Verif.Model.Log
import Verif.Props.FileIo
/-!
# Logging (C66) and checks (C76)
-/

namespace Vita
open Out Spec Fs

/-! ### Copying a file name -/

theorem strncpy_ok {dst src : Mem} {t : Text} {n : Nat} (hs : scanZ src = .ok t) (hl : dst.length = n + 1) (hd : dst.drop n = [some 0]) :
    ∃ m, Log.strncpy dst src n = .ok m ∧ m.length = n + 1 ∧ m.drop n = [some 0] ∧ scanZ m = .ok (t.take n) := by
  obtain ⟨⟨rest, e⟩, h0⟩ := scanZ_eq_ok.1 hs
  have hr : readN src 0 (min t.length n) = .ok ((t.take n).map some) := by
    rw [readN_ok (by rw [e]; simp), e]
    rw [List.drop_zero, List.take_append_of_le_length (by simp), ← List.map_take, Nat.min_comm, ← List.take_take, List.take_length]
  have hlen : ((t.take n).map some ++ List.replicate (n - min t.length n) (some (0 : UInt8))).length = n := by simp; omega
  refine ⟨(t.take n).map some ++ List.replicate (n - min t.length n) (some 0) ++ [some 0], ?_, ?_, ?_, ?_⟩
  · unfold Log.strncpy
    rw [strnlen_ok hs, bind_ok, hr, bind_ok, writeN_ok (by rw [hlen]; omega), Nat.zero_add, hlen, hd, List.take_zero, List.nil_append]
  · rw [List.length_append, hlen]; rfl
  · rw [List.drop_append_of_le_length (by rw [hlen]), List.drop_of_length_le (by rw [hlen])]; rfl
  · refine scanZ_eq_ok.2 ⟨?_, fun hc => h0 (List.mem_of_mem_take hc)⟩
    cases hk : n - min t.length n with
    | zero => exact ⟨[], by simp⟩
    | succ k => exact ⟨List.replicate k (some 0) ++ [some 0], by simp [List.replicate_succ]⟩

/-! ### Files that can be appended to -/

/-- The file at `p` after the writes, each to a place, at the end or as new contents: of each text as much is there as there was room for. -/
def fileKept (R : Fs.Path → Option Nat) (p : Fs.Path) : (k : Option Kind) → List (Fs.Path × Bool × List UInt8) → Option Kind
  | k, [] => k
  | k, (q, app, bs) :: h => fileKept R p (if q = p then some (.file (kept (R p) (if app then dataOf k else []) bs)) else k) h

/-- Without a limit: all of the texts. -/
theorem fileKept_unlimited {R : Fs.Path → Option Nat} {p : Fs.Path} (hR : R p = none) :
    ∀ (h : List (Fs.Path × Bool × List UInt8)) (k : Option Kind), fileKept R p k h = fileAfter p k h
  | [], _ => rfl
  | (q, app, bs) :: h, k => by rw [fileKept, fileAfter, fileKept_unlimited hR h]; simp [hR, kept]

/-- Texts put at the end: what was there stays, and of all the texts together as much follows as there was room for. -/
theorem fileKept_ends (R : Fs.Path → Option Nat) (p : Fs.Path) : ∀ (h : List (Fs.Path × Bool × List UInt8)) (k : Option Kind),
    (∀ x ∈ h, x.2.1 = true) → (∃ x ∈ h, x.1 = p) →
    fileKept R p k h = some (.file (kept (R p) (dataOf k) (h.flatMap fun x => if x.1 = p then x.2.2 else []))) := by
  have gen : ∀ (h : List (Fs.Path × Bool × List UInt8)), (∀ x ∈ h, x.2.1 = true) → ∀ d a : List UInt8,
      fileKept R p (some (.file (kept (R p) d a))) h = some (.file (kept (R p) d (a ++ h.flatMap fun x => if x.1 = p then x.2.2 else []))) := by
    intro h
    induction h with
    | nil => intro _ d a; simp [fileKept]
    | cons x h ih =>
      intro hx d a
      obtain ⟨q, app, bs⟩ := x
      obtain rfl : app = true := hx (q, app, bs) (by simp)
      have hx' : ∀ x ∈ h, x.2.1 = true := fun x hm => hx x (by simp [hm])
      rw [fileKept]
      by_cases hq : q = p
      · simp only [hq, if_true, dataOf, kept_kept]
        rw [ih hx' d (a ++ bs)]
        simp
      · simp only [hq, if_false]
        rw [ih hx' d a]
        simp [hq]
  intro h
  induction h with
  | nil => intro k _ he; obtain ⟨x, hx, -⟩ := he; cases hx
  | cons x h ih =>
    intro k hx he
    obtain ⟨q, app, bs⟩ := x
    obtain rfl : app = true := hx (q, app, bs) (by simp)
    have hx' : ∀ x ∈ h, x.2.1 = true := fun x hm => hx x (by simp [hm])
    rw [fileKept]
    by_cases hq : q = p
    · simp only [hq, if_true]
      rw [gen h hx']
      simp
    · simp only [hq, if_false]
      rw [ih k hx' (by
        obtain ⟨y, hy, e⟩ := he
        rcases List.mem_cons.1 hy with rfl | hy
        · exact absurd e hq
        · exact ⟨y, hy, e⟩)]
      simp [hq]

/-- The name `t` is that of a file that can be opened for writing, whatever the limit on its size. -/
def Openable (w : World) (t : Text) : Prop :=
  ∃ p, resolve w true t = some p ∧ t.getLast? ≠ some 47 ∧ w.mayWrite p = true ∧
    ((∃ d, kind w p = some (.file d)) ∨ kind w p = none ∧ w.mayCreate p = true)

theorem Openable.put {w : World} {t : Text} (h : Openable w t) (bs : List UInt8) :
    ∃ p w1, openW w true t = some (w1, p) ∧ resolve w true t = some p ∧ (kind w p = none ∨ ∃ d, kind w p = some (.file d)) ∧
      Wrote w (put w1 p bs) p (kept (w.room p) (dataOf (kind w p)) bs) := by
  obtain ⟨p, hr, hl, hmw, hk⟩ := h
  have : ∃ w1, openW w true t = some (w1, p) := by
    unfold openW
    rw [hr]
    simp only [Option.bind_eq_bind, Option.bind_some, hl, if_false]
    rcases hk with ⟨d, hk⟩ | ⟨hk, hm⟩
    · simp [hk, hmw]
    · simp [hk, hm]
  obtain ⟨w1, ho⟩ := this
  obtain ⟨-, hp0, hw, hk'⟩ := openW_wrote ho
  refine ⟨p, w1, ho, hr, hk', ?_⟩
  have := put_kept hw hp0 bs
  simpa [dataAfter] using this

theorem Openable.stable {w w' : World} {p : Fs.Path} {d : List UInt8} (hw : Wrote w w' p d) (hk : kind w p = none ∨ ∃ d, kind w p = some (.file d))
    {t : Text} (h : Openable w t) : Openable w' t := by
  obtain ⟨q, hr, hl, hmw, hkq⟩ := h
  refine ⟨q, by rw [resolve_rewritten (hw.rewritten hk)]; exact hr, hl, by rw [hw.mayWrite]; exact hmw, ?_⟩
  rw [hw.kind, hw.mayCreate]
  by_cases hq : q = p
  · rw [if_pos hq]; exact Or.inl ⟨d, rfl⟩
  · rw [if_neg hq]; exact hkq

/-- Of the texts written, each with the file name it goes to (none: `stderr`), those on `stderr`. -/
def errPart (es : List (Option Text × Text)) : Text := (es.map fun e => if e.1 = none then e.2 else []).flatten

/-- Of the texts written, those to files, as writes at the end of the file. -/
def filePart (w : World) (es : List (Option Text × Text)) : List (Fs.Path × Bool × List UInt8) :=
  es.filterMap fun e => e.1.bind fun t => (resolve w true t).map fun p => (p, true, e.2)

theorem filePart_congr {w w' : World} (h : ∀ t, resolve w' true t = resolve w true t) (es : List (Option Text × Text)) : filePart w' es = filePart w es := by
  unfold filePart
  simp only [h]

/-! ### C66 -/

/-- The text of an optional string. -/
def optText : Option Mem → Text
  | none => []
  | some z => textAt z

/-- The argument is NULL or a C string. -/
def IsOptText (z : Option Mem) : Prop := ∀ m, z = some m → scanZ m = .ok (textAt m)

/-- The file name for a level after the calls `past`, most recent first; empty: `stderr`. -/
def lastTarget : (past : List Log.Call) → Log.Level → Text
  | [], _ => []
  | .level l' z :: past, l => if l' = l then (optText z).take 4095 else lastTarget past l
  | .all z :: _, _ => (optText z).take 4095
  | .log .. :: past, l => lastTarget past l

/-- The level as it appears in the output, at least five characters wide. -/
def levelText : Log.Level → Text
  | .info => chars' " INFO"
  | .warn => chars' " WARN"
  | .debug => chars' "DEBUG"
  | .error => chars' "ERROR"
  | .fatal => chars' "FATAL"
  | .assert => chars' "ASSERT FAILURE"

/-- The line for a message: time, level, the condition in brackets if there is one, the place, the message. -/
def logLine (l : Log.Level) (m : Log.Msg) : Text :=
  m.now ++ chars' " " ++ levelText l ++ chars' " " ++ (match m.zexpr with | none => [] | some e => chars' "[" ++ e ++ chars' "] ") ++
    m.file ++ chars' ":" ++ numeral m.line ++ chars' ": " ++ m.body ++ chars' "\n"

/-- The program ends with a message of this level. -/
def Ends (l : Log.Level) : Prop := l = .fatal ∨ l = .assert

instance (l : Log.Level) : Decidable (Ends l) := inferInstanceAs (Decidable (_ ∨ _))

/-- The file name for a message: the one passed, or the one set for its level. -/
def chosen (past : List Log.Call) (z : Option Mem) (l : Log.Level) : Text :=
  match z with
  | none => lastTarget past l
  | some z => textAt z

/-- The lines to be written by the calls, after the calls `past`, each with its file name (none: `stderr`): one for each log call whose condition is
false, up to the first one that ends the program. -/
def emits : (past : List Log.Call) → List Log.Call → List (Option Text × Text)
  | _, [] => []
  | past, .level l z :: cs => emits (.level l z :: past) cs
  | past, .all z :: cs => emits (.all z :: past) cs
  | past, .log z l true m :: cs => emits (.log z l true m :: past) cs
  | past, .log z l false m :: cs =>
    (if chosen past z l = [] then none else some (chosen past z l), logLine l m) :: if Ends l then [] else emits (.log z l false m :: past) cs

/-- The file names passed are C strings. -/
def GoodCall : Log.Call → Prop
  | .level _ z => IsOptText z
  | .all z => IsOptText z
  | .log z _ _ _ => IsOptText z

theorem text_eq_logLine (l : Log.Level) (m : Log.Msg) : Log.text l m = logLine l m := by
  have h1 : chars' " " = [32] := by decide +kernel
  have h2 : chars' "[" = [91] := by decide +kernel
  have h3 : chars' "] " = [93, 32] := by decide +kernel
  have h4 : chars' ":" = [58] := by decide +kernel
  have h5 : chars' ": " = [58, 32] := by decide +kernel
  have h6 : chars' "\n" = [10] := by decide +kernel
  have h7 : Log.pad5 l.str = levelText l := by cases l <;> decide +kernel
  unfold Log.text logLine
  rw [h1, h2, h3, h4, h5, h6, h7]
  cases m.zexpr <;> simp

/-- The buffers hold the file names set by the calls `past`. -/
def Held (s : Log.St) (past : List Log.Call) : Prop :=
  ∀ l, (s.names l).length = 4095 + 1 ∧ (s.names l).drop 4095 = [some 0] ∧ scanZ (s.names l) = .ok (lastTarget past l)

theorem held_init (w : World) (err : List UInt8) : Held ⟨Log.initNames, w, err⟩ [] := by
  intro l
  refine ⟨List.length_replicate, ?_, ?_⟩
  · simp only [Log.initNames, Log.pathMax, List.drop_replicate]; rfl
  · exact scanZ_eq_ok.2 ⟨⟨List.replicate 4095 (some 0), by simp only [Log.initNames, Log.pathMax]; rfl⟩, by simp [lastTarget]⟩

theorem strncpy_opt {dst : Mem} {z : Option Mem} (hz : IsOptText z) (hl : dst.length = 4095 + 1) (hd : dst.drop 4095 = [some 0]) :
    ∃ m, Log.strncpy dst (z.getD Log.emptyZ) (Log.pathMax - 1) = .ok m ∧ m.length = 4095 + 1 ∧ m.drop 4095 = [some 0] ∧
      scanZ m = .ok ((optText z).take 4095) := by
  refine strncpy_ok ?_ hl hd
  cases z with
  | none => simp [Log.emptyZ, scanZ, optText]
  | some z => exact hz z rfl

theorem redirectLoop_ok {z : Option Mem} (hz : IsOptText z) : ∀ (ls : List Log.Level) (s : Log.St) (tg : Log.Level → Text),
    (∀ l, (s.names l).length = 4095 + 1 ∧ (s.names l).drop 4095 = [some 0] ∧ scanZ (s.names l) = .ok (tg l)) →
    ∃ s', Log.redirectLoop z ls s = .ok s' ∧ s'.world = s.world ∧ s'.err = s.err ∧
      ∀ l, (s'.names l).length = 4095 + 1 ∧ (s'.names l).drop 4095 = [some 0] ∧
        scanZ (s'.names l) = .ok (if l ∈ ls then (optText z).take 4095 else tg l) := by
  intro ls
  induction ls with
  | nil => intro s tg h; exact ⟨s, rfl, rfl, rfl, by simpa using h⟩
  | cons l ls ih =>
    intro s tg h
    obtain ⟨m, e, h1, h2, h3⟩ := strncpy_opt (dst := s.names l) hz (h l).1 (h l).2.1
    obtain ⟨s', e', hw, he, hs⟩ := ih { s with names := fun l' => if l' = l then m else s.names l' }
      (fun l' => if l' = l then (optText z).take 4095 else tg l') (by
        intro l'
        by_cases hl : l' = l
        · simp [hl, h1, h2, h3]
        · simpa [hl] using h l')
    refine ⟨s', by rw [Log.redirectLoop, e, bind_ok]; exact e', hw, he, fun l' => ?_⟩
    obtain ⟨g1, g2, g3⟩ := hs l'
    refine ⟨g1, g2, ?_⟩
    rw [g3]
    by_cases hl : l' = l
    · simp [hl]
    · simp [hl]

theorem log_fatal_flag (l : Log.Level) : decide (l = .fatal ∨ l = .assert) = decide (Ends l) := rfl

theorem run_log {dbg : Bool} {cs : List Log.Call} : ∀ {s : Log.St} {past : List Log.Call}, Held s past → (∀ c ∈ cs, GoodCall c) →
    (∀ e ∈ emits past cs, ∀ t, e.1 = some t → Openable s.world t) →
    ∃ s' b, Log.run dbg s cs = .ok (s', b) ∧ s'.err = s.err ++ errPart (emits past cs) ∧
      (∀ p, kind s'.world p = fileKept s.world.room p (kind s.world p) (filePart s.world (emits past cs))) ∧
      (b = true ↔ ∃ z l m, Log.Call.log z l false m ∈ cs ∧ Ends l) := by
  induction cs with
  | nil =>
    intro s past hH _ _
    exact ⟨s, false, rfl, by simp [emits, errPart], fun p => by simp [emits, filePart, fileKept], by simp⟩
  | cons c cs ih =>
    intro s past hH hg ho
    have hgc := hg c (by simp)
    have hgs : ∀ c ∈ cs, GoodCall c := fun c hc => hg c (by simp [hc])
    cases c with
    | level l z =>
      obtain ⟨m, e, h1, h2, h3⟩ := strncpy_opt (dst := s.names l) (z := z) hgc (hH l).1 (hH l).2.1
      obtain ⟨s', b, g1, g2, g3, g4⟩ := ih (s := { s with names := fun l' => if l' = l then m else s.names l' }) (past := .level l z :: past) (by
        intro l'
        by_cases hl : l' = l
        · simp [hl, h1, h2, h3, lastTarget]
        · simpa [hl, lastTarget, Ne.symm hl] using hH l') hgs ho
      refine ⟨s', b, ?_, g2, g3, ?_⟩
      · simpa [Log.run, Log.run1, Log.redirectLevel, e] using g1
      · simpa using g4
    | all z =>
      obtain ⟨s1, e, hw, he, hs⟩ := redirectLoop_ok (z := z) hgc [.info, .warn, .debug, .error, .fatal, .assert] s (lastTarget past) hH
      have hall : ∀ l : Log.Level, l ∈ [Log.Level.info, .warn, .debug, .error, .fatal, .assert] := by intro l; cases l <;> simp
      obtain ⟨s', b, g1, g2, g3, g4⟩ := ih (s := s1) (past := .all z :: past) (by
        intro l'
        obtain ⟨k1, k2, k3⟩ := hs l'
        rw [if_pos (hall l')] at k3
        exact ⟨k1, k2, k3⟩) hgs (by rw [hw]; exact ho)
      rw [hw] at g3
      rw [he] at g2
      refine ⟨s', b, ?_, g2, g3, ?_⟩
      · simp only [Log.run, Log.run1, Log.redirectAll, e, bind_ok, Bool.false_eq_true, if_false]; exact g1
      · simpa using g4
    | log z l x m =>
      cases x with
      | true =>
        obtain ⟨s', b, g1, g2, g3, g4⟩ := ih (s := s) (past := .log z l true m :: past) (by intro l'; simpa [lastTarget] using hH l') hgs ho
        refine ⟨s', b, ?_, g2, g3, ?_⟩
        · simpa [Log.run, Log.run1, Log.log] using g1
        · simpa using g4
      | false =>
        have ht : scanZ (z.getD (s.names l)) = .ok (chosen past z l) := by
          cases z with
          | none => exact (hH l).2.2
          | some z => exact hgc z rfl
        simp only [emits] at ho ⊢
        generalize chosen past z l = t at ht ho ⊢
        have main : ∃ s1, Log.log dbg s z l false m = .ok (s1, decide (Ends l)) ∧ s1.names = s.names ∧
            (∀ u, Openable s.world u → Openable s1.world u) ∧ (∀ u, resolve s1.world true u = resolve s.world true u) ∧ s1.world.room = s.world.room ∧
            s1.err = s.err ++ errPart [(if t = [] then none else some t, logLine l m)] ∧
            (∀ p, kind s1.world p = fileKept s.world.room p (kind s.world p) (filePart s.world [(if t = [] then none else some t, logLine l m)])) := by
          unfold Log.log
          simp only [Bool.not_false, if_true, ht, bind_ok]
          by_cases h0 : t = []
          · rw [if_pos h0, if_pos h0, text_eq_logLine]
            exact ⟨_, rfl, rfl, fun _ h => h, fun _ => rfl, rfl, by simp [errPart], fun p => by simp [filePart, fileKept]⟩
          · rw [if_neg h0, if_neg h0, text_eq_logLine]
            have hop := ho (if t = [] then none else some t, logLine l m) (by simp) t (by simp [h0])
            obtain ⟨p, w1, e1, hr, hk, hwr⟩ := hop.put (logLine l m)
            rw [e1]
            refine ⟨_, rfl, rfl, fun u hu => hu.stable hwr hk, fun u => resolve_rewritten (hwr.rewritten hk) true u, hwr.room, by simp [errPart], fun q => ?_⟩
            simp only [filePart, List.filterMap_cons, List.filterMap_nil, Option.bind_some, hr, Option.map_some, fileKept, if_true]
            rw [hwr.kind]
            by_cases hq : q = p
            · simp [hq]
            · rw [if_neg hq, if_neg (Ne.symm hq)]
        obtain ⟨s1, e, hn, hop, hres, hroom, herr, hkind⟩ := main
        by_cases hE : Ends l
        · rw [if_pos hE]
          refine ⟨s1, true, ?_, herr, hkind, ?_⟩
          · simp [Log.run, Log.run1, e, hE]
          · simp only [true_iff]; exact ⟨z, l, m, by simp, hE⟩
        · rw [if_neg hE] at ho ⊢
          obtain ⟨s', b, g1, g2, g3, g4⟩ := ih (s := s1) (past := .log z l false m :: past)
            (by intro l'; rw [hn]; simpa [lastTarget] using hH l') hgs
            (fun e' he' t' ht' => hop t' (ho e' (by simp [he']) t' ht'))
          refine ⟨s', b, ?_, ?_, ?_, ?_⟩
          · simp only [Log.run, Log.run1, e, bind_ok, decide_eq_false hE, Bool.false_eq_true, if_false]; exact g1
          · rw [g2, herr]; simp [errPart]
          · intro p
            rw [g3, hkind, filePart_congr hres, hroom]
            cases hx : (if t = [] then none else some t : Option Text) with
            | none => simp [filePart, fileKept]
            | some t' =>
              cases hy : resolve s.world true t' with
              | none => simp [filePart, fileKept, hy]
              | some q => simp [filePart, fileKept, hy]
          · rw [g4]
            constructor
            · rintro ⟨z', l', m', h1, h2⟩; exact ⟨z', l', m', by simp [h1], h2⟩
            · rintro ⟨z', l', m', h1, h2⟩
              rcases List.mem_cons.1 h1 with h1 | h1
              · injection h1 with _ h1; exact absurd (h1 ▸ h2) hE
              · exact ⟨z', l', m', h1, h2⟩

/-- **C66** (partial: all files that are logged to can be opened, see `C66_fatal_does_not_end`).  For any calls since the start of the program: each log call
whose condition is false writes one line to the file passed, to the file set last for its level, or to `stderr`, and nothing else is written; the
program is terminated exactly if a message of level fatal or assert is due, and no call after it has an effect. -/
theorem C66_history_partial {dbg : Bool} {cs : List Log.Call} {w : World} {err : Text} (hg : ∀ c ∈ cs, GoodCall c)
    (ho : ∀ e ∈ emits [] cs, ∀ t, e.1 = some t → Openable w t) :
    ∃ s' b, Log.run dbg ⟨Log.initNames, w, err⟩ cs = .ok (s', b) ∧ s'.err = err ++ errPart (emits [] cs) ∧
      (∀ p, kind s'.world p = fileKept w.room p (kind w p) (filePart w (emits [] cs))) ∧
      (b = true ↔ ∃ z l m, Log.Call.log z l false m ∈ cs ∧ Ends l) :=
  run_log (held_init w err) hg ho

/-- **C66** In any state: a log call does nothing if its condition is true; it terminates the program only with level fatal or assert. -/
theorem C66_condition (dbg : Bool) (s : Log.St) (z : Option Mem) (l : Log.Level) (m : Log.Msg) :
    Log.log dbg s z l true m = .ok (s, false) ∧ ∀ e r, Log.log dbg s z l e m = .ok r → r.2 = true → e = false ∧ Ends l := by
  refine ⟨rfl, ?_⟩
  intro e r h hr
  cases e with
  | true =>
    injection h with h
    rw [← h] at hr; cases hr
  | false =>
    refine ⟨rfl, ?_⟩
    unfold Log.log at h
    simp only [Bool.not_false, if_true] at h
    obtain ⟨t, -, h⟩ := bind_eq_ok.1 h
    split at h
    · injection h with h
      rw [← h] at hr
      exact of_decide_eq_true hr
    · split at h
      · split at h
        · cases h
        · injection h with h
          rw [← h] at hr; cases hr
      · injection h with h
        rw [← h] at hr
        exact of_decide_eq_true hr

/-- **C66** Redirecting one level leaves the other levels alone. -/
theorem C66_redirect_level {s s' : Log.St} {l : Log.Level} {z : Option Mem} (h : Log.redirectLevel s l z = .ok s') :
    (∀ l', l' ≠ l → s'.names l' = s.names l') ∧ s'.world = s.world ∧ s'.err = s.err := by
  obtain ⟨m, -, h⟩ := bind_eq_ok.1 h
  injection h with h
  subst h
  exact ⟨fun l' hl => if_neg hl, rfl, rfl⟩

/-- **C66** (counterexample) If the file cannot be opened, the message is lost in release builds, and even a fatal one does not end the program. -/
theorem C66_fatal_does_not_end {s : Log.St} {z : Option Mem} {l : Log.Level} {t : Text} (hz : scanZ (z.getD (s.names l)) = .ok t) (h0 : t ≠ [])
    (ho : openW s.world true t = none) (m : Log.Msg) : Log.log false s z l false m = .ok (s, false) := by
  unfold Log.log
  simp [hz, h0, ho]

/-- **C66** (counterexample) In debug builds the message about a file that cannot be opened has a wrong format: undefined. -/
theorem C66_unopenable_debug {s : Log.St} {z : Option Mem} {l : Log.Level} {t : Text} (hz : scanZ (z.getD (s.names l)) = .ok t) (h0 : t ≠ [])
    (ho : openW s.world true t = none) (m : Log.Msg) : Log.log true s z l false m = .ub := by
  unfold Log.log
  simp [hz, h0, ho]

/-! The full effect of the calls in release builds. -/

theorem unopenable_stable {w w' : World} {p : Fs.Path} {d : List UInt8} (hw : Wrote w w' p d)
    (hk : (∃ d, kind w p = some (.file d)) ∧ w.mayWrite p = true ∨ kind w p = none ∧ w.mayCreate p = true) {t : Text}
    (h : openW w true t = none) : openW w' true t = none := by
  have hk' : kind w p = none ∨ ∃ d, kind w p = some (.file d) := by
    rcases hk with ⟨h, -⟩ | ⟨h, -⟩
    · exact .inr h
    · exact .inl h
  unfold openW at h ⊢
  rw [resolve_rewritten (hw.rewritten hk')]
  cases hr : resolve w true t with
  | none => rfl
  | some q =>
    rw [hr] at h
    simp only [Option.bind_eq_bind, Option.bind_some] at h ⊢
    by_cases hl : t.getLast? = some 47
    · rw [if_pos hl]
    · rw [if_neg hl] at h ⊢
      rw [hw.kind]
      by_cases hq : q = p
      · exfalso
        subst hq
        rcases hk with ⟨⟨d, hk⟩, hm⟩ | ⟨hk, hm⟩
        · simp [hk, hm] at h
        · simp [hk, hm] at h
      · rw [if_neg hq]
        cases hkq : kind w q with
        | none =>
          rw [hkq] at h
          simp only [hw.mayCreate]
          by_cases hm : w.mayCreate q = true
          · simp [hm] at h
          · simp [hm]
        | some k =>
          rw [hkq] at h
          cases k with
          | file d =>
            simp only [hw.mayWrite]
            by_cases hm : w.mayWrite q = true
            · simp [hm] at h
            · simp [hm]
          | _ => rfl

/-- What the calls write, after the calls `past`, each line with its file name (none: `stderr`), and whether they end the program: a line is due for each log
call whose condition is false; a line for a file that cannot be opened is lost, and does not end the program. -/
def written (w : World) : (past : List Log.Call) → List Log.Call → List (Option Text × Text) × Bool
  | _, [] => ([], false)
  | past, .level l z :: cs => written w (.level l z :: past) cs
  | past, .all z :: cs => written w (.all z :: past) cs
  | past, .log z l true m :: cs => written w (.log z l true m :: past) cs
  | past, .log z l false m :: cs =>
    if chosen past z l ≠ [] ∧ openW w true (chosen past z l) = none then written w (.log z l false m :: past) cs
    else if Ends l then ([(if chosen past z l = [] then none else some (chosen past z l), logLine l m)], true)
    else ((if chosen past z l = [] then none else some (chosen past z l), logLine l m) :: (written w (.log z l false m :: past) cs).1,
      (written w (.log z l false m :: past) cs).2)

theorem written_congr {w w' : World} (h : ∀ t, openW w' true t = none ↔ openW w true t = none) (cs : List Log.Call) :
    ∀ past, written w' past cs = written w past cs := by
  induction cs with
  | nil => intro past; rfl
  | cons c cs ih =>
    intro past
    cases c with
    | level l z => simp only [written, ih]
    | all z => simp only [written, ih]
    | log z l x m => cases x <;> simp only [written, ih, h]

theorem Openable.opens {w : World} {t : Text} (h : Openable w t) : openW w true t ≠ none := by
  obtain ⟨p, w1, e, -⟩ := h.put []
  rw [e]; simp

theorem openable_of_opens {w : World} (hm : ∀ p, kind w p = none → w.mayCreate p = true → w.mayWrite p = true) {t : Text}
    (h : openW w true t ≠ none) : Openable w t := by
  unfold openW at h
  cases e : resolve w true t with
  | none => simp [e] at h
  | some p =>
    simp only [e, Option.bind_eq_bind, Option.bind_some] at h
    by_cases hl : t.getLast? = some 47
    · simp [hl] at h
    · rw [if_neg hl] at h
      refine ⟨p, e, hl, ?_⟩
      cases hk : kind w p with
      | none =>
        rw [hk] at h
        by_cases hc : w.mayCreate p = true
        · exact ⟨hm p hk hc, .inr ⟨rfl, hc⟩⟩
        · simp [hc] at h
      | some k =>
        rw [hk] at h
        cases k with
        | file d =>
          by_cases hc : w.mayWrite p = true
          · exact ⟨hc, .inl ⟨d, rfl⟩⟩
          · simp [hc] at h
        | _ => simp at h

theorem log_opens {dbg : Bool} {s : Log.St} {z : Option Mem} {l : Log.Level} {m : Log.Msg} {t : Text} (ht : scanZ (z.getD (s.names l)) = .ok t)
    (ho : ∀ t, openW s.world true t ≠ none → Openable s.world t) (hu : ¬(t ≠ [] ∧ openW s.world true t = none)) :
    ∃ s1, Log.log dbg s z l false m = .ok (s1, decide (Ends l)) ∧ s1.names = s.names ∧
    (∀ u, openW s1.world true u ≠ none → Openable s1.world u) ∧ (∀ u, resolve s1.world true u = resolve s.world true u) ∧ s1.world.room = s.world.room ∧
    (∀ u, openW s1.world true u = none ↔ openW s.world true u = none) ∧
    s1.err = s.err ++ errPart [(if t = [] then none else some t, logLine l m)] ∧
    (∀ p, kind s1.world p = fileKept s.world.room p (kind s.world p) (filePart s.world [(if t = [] then none else some t, logLine l m)])) := by
  unfold Log.log
  simp only [Bool.not_false, if_true, ht, bind_ok]
  by_cases h0 : t = []
  · rw [if_pos h0, if_pos h0, text_eq_logLine]
    exact ⟨_, rfl, rfl, ho, fun _ => rfl, rfl, fun _ => Iff.rfl, by simp [errPart], fun p => by simp [filePart, fileKept]⟩
  · rw [if_neg h0, if_neg h0, text_eq_logLine]
    have hop : Openable s.world t := ho t (fun hn => hu ⟨h0, hn⟩)
    obtain ⟨p, w1, e1, hr, hk, hwr⟩ := hop.put (logLine l m)
    have hk2 : (∃ d, kind s.world p = some (.file d)) ∧ s.world.mayWrite p = true ∨ kind s.world p = none ∧ s.world.mayCreate p = true := by
      obtain ⟨p', hr', -, hmw, hkk⟩ := hop
      rw [hr] at hr'
      cases hr'
      rcases hkk with h | h
      · exact .inl ⟨h, hmw⟩
      · exact .inr h
    rw [e1]
    have hst : ∀ u, openW (put w1 p (logLine l m)) true u = none ↔ openW s.world true u = none := by
      intro u
      constructor
      · intro hn
        by_contra hc
        exact ((ho u hc).stable hwr hk).opens hn
      · exact unopenable_stable hwr hk2
    refine ⟨_, rfl, rfl, fun u hu => (ho u (fun hn => hu ((hst u).2 hn))).stable hwr hk,
      fun u => resolve_rewritten (hwr.rewritten hk) true u, hwr.room, hst, by simp [errPart], fun q => ?_⟩
    simp only [filePart, List.filterMap_cons, List.filterMap_nil, Option.bind_some, hr, Option.map_some, fileKept, if_true]
    rw [hwr.kind]
    by_cases hq : q = p
    · simp [hq]
    · rw [if_neg hq, if_neg (Ne.symm hq)]

theorem run_log_release {cs : List Log.Call} : ∀ {s : Log.St} {past : List Log.Call}, Held s past → (∀ c ∈ cs, GoodCall c) →
    (∀ t, openW s.world true t ≠ none → Openable s.world t) →
    ∃ s', Log.run false s cs = .ok (s', (written s.world past cs).2) ∧ s'.err = s.err ++ errPart (written s.world past cs).1 ∧
      (∀ p, kind s'.world p = fileKept s.world.room p (kind s.world p) (filePart s.world (written s.world past cs).1)) := by
  induction cs with
  | nil =>
    intro s past hH _ _
    exact ⟨s, rfl, by simp [written, errPart], fun p => by simp [written, filePart, fileKept]⟩
  | cons c cs ih =>
    intro s past hH hg ho
    have hgc := hg c (by simp)
    have hgs : ∀ c ∈ cs, GoodCall c := fun c hc => hg c (by simp [hc])
    cases c with
    | level l z =>
      obtain ⟨m, e, h1, h2, h3⟩ := strncpy_opt (dst := s.names l) (z := z) hgc (hH l).1 (hH l).2.1
      obtain ⟨s', g1, g2, g3⟩ := ih (s := { s with names := fun l' => if l' = l then m else s.names l' }) (past := .level l z :: past) (by
        intro l'
        by_cases hl : l' = l
        · simp [hl, h1, h2, h3, lastTarget]
        · simpa [hl, lastTarget, Ne.symm hl] using hH l') hgs ho
      refine ⟨s', ?_, g2, g3⟩
      simpa [Log.run, Log.run1, Log.redirectLevel, e, written] using g1
    | all z =>
      obtain ⟨s1, e, hw, he, hs⟩ := redirectLoop_ok (z := z) hgc [.info, .warn, .debug, .error, .fatal, .assert] s (lastTarget past) hH
      have hall : ∀ l : Log.Level, l ∈ [Log.Level.info, .warn, .debug, .error, .fatal, .assert] := by intro l; cases l <;> simp
      obtain ⟨s', g1, g2, g3⟩ := ih (s := s1) (past := .all z :: past) (by
        intro l'
        obtain ⟨k1, k2, k3⟩ := hs l'
        rw [if_pos (hall l')] at k3
        exact ⟨k1, k2, k3⟩) hgs (by rw [hw]; exact ho)
      rw [hw] at g1 g2 g3
      rw [he] at g2
      refine ⟨s', ?_, g2, g3⟩
      simp only [Log.run, Log.run1, Log.redirectAll, e, bind_ok, Bool.false_eq_true, if_false]; exact g1
    | log z l x m =>
      cases x with
      | true =>
        obtain ⟨s', g1, g2, g3⟩ := ih (s := s) (past := .log z l true m :: past) (by intro l'; simpa [lastTarget] using hH l') hgs ho
        refine ⟨s', ?_, g2, g3⟩
        simpa [Log.run, Log.run1, Log.log, written] using g1
      | false =>
        have ht : scanZ (z.getD (s.names l)) = .ok (chosen past z l) := by
          cases z with
          | none => exact (hH l).2.2
          | some z => exact hgc z rfl
        have hH' : ∀ s1 : Log.St, s1.names = s.names → Held s1 (.log z l false m :: past) := by
          intro s1 hn l'; rw [hn]; simpa [lastTarget] using hH l'
        simp only [written]
        generalize chosen past z l = t at ht ⊢
        by_cases hu : t ≠ [] ∧ openW s.world true t = none
        · simp only [if_pos hu]
          obtain ⟨s', g1, g2, g3⟩ := ih (s := s) (past := .log z l false m :: past) (hH' s rfl) hgs ho
          refine ⟨s', ?_, g2, g3⟩
          simp only [Log.run, Log.run1, C66_fatal_does_not_end ht hu.1 hu.2, bind_ok, Bool.false_eq_true, if_false]; exact g1
        · simp only [if_neg hu]
          have main := log_opens (dbg := false) (m := m) ht ho hu
          obtain ⟨s1, e, hn, hop, hres, hroom, hopen, herr, hkind⟩ := main
          by_cases hE : Ends l
          · simp only [if_pos hE]
            refine ⟨s1, ?_, herr, hkind⟩
            simp [Log.run, Log.run1, e, hE]
          · simp only [if_neg hE]
            obtain ⟨s', g1, g2, g3⟩ := ih (s := s1) (past := .log z l false m :: past) (hH' s1 hn) hgs hop
            rw [written_congr hopen] at g1 g2 g3
            refine ⟨s', ?_, ?_, ?_⟩
            · simp only [Log.run, Log.run1, e, bind_ok, decide_eq_false hE, Bool.false_eq_true, if_false]; exact g1
            · rw [g2, herr]; simp [errPart]
            · intro p
              rw [g3, hkind, filePart_congr hres, hroom]
              cases hx : (if t = [] then none else some t : Option Text) with
              | none => simp [filePart, fileKept]
              | some t' =>
                cases hy : resolve s.world true t' with
                | none => simp [filePart, fileKept, hy]
                | some q => simp [filePart, fileKept, hy]

/-- **C66** In release builds, for any calls since the start of the program, also with files that cannot be opened: exactly the lines of `written` are written,
and the program is terminated exactly if one of level fatal or assert is among them.  (The process may write to the files it creates.) -/
theorem C66_history_release {cs : List Log.Call} {w : World} {err : Text} (hg : ∀ c ∈ cs, GoodCall c)
    (hm : ∀ p, kind w p = none → w.mayCreate p = true → w.mayWrite p = true) :
    ∃ s', Log.run false ⟨Log.initNames, w, err⟩ cs = .ok (s', (written w [] cs).2) ∧ s'.err = err ++ errPart (written w [] cs).1 ∧
      (∀ p, kind s'.world p = fileKept w.room p (kind w p) (filePart w (written w [] cs).1)) :=
  run_log_release (held_init w err) hg fun _ h => openable_of_opens hm h

theorem run_log_debug {cs : List Log.Call} : ∀ {s : Log.St} {past : List Log.Call}, Held s past → (∀ c ∈ cs, GoodCall c) →
    (∀ t, openW s.world true t ≠ none → Openable s.world t) →
    ((∃ e ∈ emits past cs, ∃ t, e.1 = some t ∧ openW s.world true t = none) → Log.run true s cs = .ub) ∧
    ((∀ e ∈ emits past cs, ∀ t, e.1 = some t → openW s.world true t ≠ none) →
      Log.run true s cs = Log.run false s cs ∧ written s.world past cs = (emits past cs, (written s.world past cs).2)) := by
  induction cs with
  | nil =>
    intro s past _ _ _
    exact ⟨fun ⟨e, he, _⟩ => by simp [emits] at he, fun _ => ⟨rfl, rfl⟩⟩
  | cons c cs ih =>
    intro s past hH hg ho
    have hgc := hg c (by simp)
    have hgs : ∀ c ∈ cs, GoodCall c := fun c hc => hg c (by simp [hc])
    cases c with
    | level l z =>
      obtain ⟨m, e, h1, h2, h3⟩ := strncpy_opt (dst := s.names l) (z := z) hgc (hH l).1 (hH l).2.1
      have := ih (s := { s with names := fun l' => if l' = l then m else s.names l' }) (past := .level l z :: past) (by
        intro l'
        by_cases hl : l' = l
        · simp [hl, h1, h2, h3, lastTarget]
        · simpa [hl, lastTarget, Ne.symm hl] using hH l') hgs ho
      simpa only [Log.run, Log.run1, Log.redirectLevel, e, written, emits, bind_ok, Bool.false_eq_true, if_false] using this
    | all z =>
      obtain ⟨s1, e, hw, he, hs⟩ := redirectLoop_ok (z := z) hgc [.info, .warn, .debug, .error, .fatal, .assert] s (lastTarget past) hH
      have hall : ∀ l : Log.Level, l ∈ [Log.Level.info, .warn, .debug, .error, .fatal, .assert] := by intro l; cases l <;> simp
      have := ih (s := s1) (past := .all z :: past) (by
        intro l'
        obtain ⟨k1, k2, k3⟩ := hs l'
        rw [if_pos (hall l')] at k3
        exact ⟨k1, k2, k3⟩) hgs (by rw [hw]; exact ho)
      rw [hw] at this
      simpa only [Log.run, Log.run1, Log.redirectAll, e, written, emits, bind_ok, Bool.false_eq_true, if_false] using this
    | log z l x m =>
      cases x with
      | true =>
        have := ih (s := s) (past := .log z l true m :: past) (by intro l'; simpa [lastTarget] using hH l') hgs ho
        simpa only [Log.run, Log.run1, Log.log, written, emits, bind_ok, Bool.not_true, Bool.false_eq_true, if_false] using this
      | false =>
        have ht : scanZ (z.getD (s.names l)) = .ok (chosen past z l) := by
          cases z with
          | none => exact (hH l).2.2
          | some z => exact hgc z rfl
        simp only [written, emits]
        generalize chosen past z l = t at ht ⊢
        by_cases hu : t ≠ [] ∧ openW s.world true t = none
        · refine ⟨fun _ => ?_, fun h => absurd hu.2 (h _ List.mem_cons_self t (by rw [if_neg hu.1]))⟩
          simp only [Log.run, Log.run1, C66_unopenable_debug ht hu.1 hu.2, bind_ub]
        · obtain ⟨s1, e, hn, hop, hres, hroom, hopen, herr, hkind⟩ := log_opens (dbg := true) (m := m) ht ho hu
          have e' : Log.log false s z l false m = .ok (s1, decide (Ends l)) := by
            rw [← e]
            unfold Log.log
            simp only [Bool.not_false, if_true, ht, bind_ok]
            by_cases h0 : t = []
            · rw [if_pos h0, if_pos h0]
            · rw [if_neg h0, if_neg h0]
              cases hx : openW s.world true t with
              | none => exact absurd ⟨h0, hx⟩ hu
              | some _ => rfl
          rw [if_neg hu]
          have h0 : ∀ t', (if t = [] then none else some t : Option Text) = some t' → openW s.world true t' ≠ none := by
            intro t' h hc
            by_cases h0 : t = []
            · rw [if_pos h0] at h; cases h
            · rw [if_neg h0] at h; cases h; exact hu ⟨h0, hc⟩
          by_cases hE : Ends l
          · simp only [if_pos hE]
            refine ⟨?_, fun _ => ?_⟩
            · rintro ⟨e1, he1, t', ht', hc⟩
              rw [List.mem_singleton] at he1
              subst he1
              exact absurd hc (h0 t' ht')
            · simp only [Log.run, Log.run1, e, e', bind_ok, decide_eq_true hE, if_true, and_self]
          · simp only [if_neg hE]
            obtain ⟨i1, i2⟩ := ih (s := s1) (past := .log z l false m :: past) (by intro l'; rw [hn]; simpa [lastTarget] using hH l') hgs hop
            rw [written_congr hopen] at i2
            simp only [hopen] at i1
            simp only [ne_eq, hopen] at i2
            simp only [Log.run, Log.run1, e, e', bind_ok, decide_eq_false hE, Bool.false_eq_true, if_false]
            refine ⟨?_, fun h => ?_⟩
            · rintro ⟨e1, he1, t', ht', hc⟩
              rcases List.mem_cons.1 he1 with rfl | he1
              · exact absurd hc (h0 t' ht')
              · exact i1 ⟨e1, he1, t', ht', hc⟩
            · obtain ⟨j1, j2⟩ := i2 fun e1 he1 => h e1 (List.mem_cons_of_mem _ he1)
              refine ⟨j1, ?_⟩
              rw [j2]

/-- **C66** In debug builds, for any calls since the start of the program: undefined exactly if a line is due for a file that cannot be opened; otherwise as in
release builds. -/
theorem C66_history_debug {cs : List Log.Call} {w : World} {err : Text} (hg : ∀ c ∈ cs, GoodCall c)
    (hm : ∀ p, kind w p = none → w.mayCreate p = true → w.mayWrite p = true) :
    ((∃ e ∈ emits [] cs, ∃ t, e.1 = some t ∧ openW w true t = none) → Log.run true ⟨Log.initNames, w, err⟩ cs = .ub) ∧
    ((∀ e ∈ emits [] cs, ∀ t, e.1 = some t → openW w true t ≠ none) →
      Log.run true ⟨Log.initNames, w, err⟩ cs = Log.run false ⟨Log.initNames, w, err⟩ cs ∧ written w [] cs = (emits [] cs, (written w [] cs).2)) :=
  run_log_debug (held_init w err) hg fun _ h => openable_of_opens hm h

example : openW exW true (chars' "/no/x") = none := by decide +kernel

/-- A message of the examples. -/
def exMsg (e : Option Text) : Log.Msg := ⟨chars' "T", e, chars' "a.c", 12, chars' "hi"⟩

example : ∀ c ∈ [Log.Call.level .warn (some (zstr (chars' "/s/f"))), .log none .warn false (exMsg none), .log none .info false (exMsg none),
    .log none .assert true (exMsg (some (chars' "x"))), .log none .fatal false (exMsg none), .log none .info false (exMsg none)], GoodCall c := by
  intro c hc
  simp only [List.mem_cons, List.not_mem_nil, or_false] at hc
  rcases hc with rfl | rfl | rfl | rfl | rfl | rfl <;> intro m hm <;> cases hm
  decide +kernel
example : emits [] [Log.Call.level .warn (some (zstr (chars' "/s/f"))), .log none .warn false (exMsg none), .log none .info false (exMsg none),
    .log none .assert true (exMsg (some (chars' "x"))), .log none .fatal false (exMsg none), .log none .info false (exMsg none)] =
    [(some (chars' "/s/f"), chars' "T  WARN a.c:12: hi\n"), (none, chars' "T  INFO a.c:12: hi\n"), (none, chars' "T FATAL a.c:12: hi\n")] := by
  decide +kernel
/-- A fatal message for a file in a directory that does not exist: it is lost, the program goes on and writes the next one. -/
example : written exW [] [.log (some (zstr (chars' "/no/x"))) .fatal false (exMsg none), .log none .info false (exMsg none)] =
    ([(none, chars' "T  INFO a.c:12: hi\n")], false) := by decide +kernel
/-- Room for four bytes, one of them in use: of the two texts together three bytes are kept. -/
example : fileKept (fun _ => some 4) [[115], [102]] (some (.file [1])) [([[115], [102]], true, [7, 8]), ([[120]], true, [5]), ([[115], [102]], true, [9, 10])] =
    some (.file [1, 7, 8, 9]) := by decide +kernel
example : ∀ p, kind exW p = none → exW.mayCreate p = true → exW.mayWrite p = true := fun _ _ _ => rfl
example : Openable exW (chars' "/s/f") :=
  ⟨[[115], [102]], by decide +kernel, by decide +kernel, rfl, Or.inl ⟨[1], by decide +kernel⟩⟩

/-! ### C76 -/

/-- The line for a failed check. -/
def checkLine (m : Debug.Msg) : Text :=
  m.now ++ chars' " " ++ m.subject ++ chars' " [" ++ m.zexpr ++ chars' "] " ++ m.file ++ chars' ":" ++ m.func ++ chars' ":" ++ numeral m.line ++
    chars' ": " ++ m.body ++ chars' "\n"

/-- The texts to be written by the calls, each with its file name (none: `stderr`), if the output is switched on or not (`on`) and goes to `target`. -/
def debugEmits : (on : Bool) → (target : Option Text) → List Debug.Call → List (Option Text × Text)
  | _, _, [] => []
  | on, _, .redirect z :: cs => debugEmits on (z.map textAt) cs
  | _, target, .disable off :: cs => debugEmits (!off) target cs
  | on, target, .check true _ _ :: cs => debugEmits on target cs
  | on, target, .check false quit m :: cs =>
    (if on then [(target, checkLine m)] else []) ++ if quit then [] else debugEmits on target cs
  | on, target, .printf now subject body :: cs =>
    (if on then [(target, now ++ chars' " " ++ subject ++ chars' " " ++ body)] else []) ++ debugEmits on target cs

/-- The file names passed are C strings. -/
def GoodDebugCall : Debug.Call → Prop
  | .redirect z => IsOptText z
  | _ => True

theorem text_eq_checkLine (m : Debug.Msg) : Debug.text m = checkLine m := by
  have h1 : chars' " " = [32] := by decide +kernel
  have h2 : chars' " [" = [32, 91] := by decide +kernel
  have h3 : chars' "] " = [93, 32] := by decide +kernel
  have h4 : chars' ":" = [58] := by decide +kernel
  have h5 : chars' ": " = [58, 32] := by decide +kernel
  have h6 : chars' "\n" = [10] := by decide +kernel
  unfold Debug.text checkLine
  rw [h1, h2, h3, h4, h5, h6]

/-- One text has been written. -/
structure Emitted (s s1 : Debug.St) (es : List (Option Text × Text)) : Prop where
  on : s1.on = s.on
  filename : s1.filename = s.filename
  errOpen : s1.errOpen = true
  open_ : ∀ u, Openable s.world u → Openable s1.world u
  resolve : ∀ u, resolve s1.world true u = Fs.resolve s.world true u
  room : s1.world.room = s.world.room
  err : s1.err = s.err ++ errPart es
  kind : ∀ p, kind s1.world p = fileKept s.world.room p (Fs.kind s.world p) (filePart s.world es)

theorem emit_ok {s : Debug.St} (hf : IsOptText s.filename) (he : s.errOpen = true) (t : Text)
    (ho : ∀ n, s.on = true → s.filename.map textAt = some n → Openable s.world n) :
    ∃ s1, Debug.emit s t = .ok s1 ∧ Emitted s s1 (if s.on then [(s.filename.map textAt, t)] else []) := by
  unfold Debug.emit
  by_cases hon : s.on = true
  · rw [if_pos hon, if_pos hon]
    cases hfn : s.filename with
    | none =>
      simp only [Debug.toErr, he, if_true]
      exact ⟨_, rfl, rfl, hfn.symm ▸ rfl, rfl, fun _ h => h, fun _ => rfl, rfl, by simp [errPart], fun p => by simp [filePart, fileKept]⟩
    | some z =>
      have hz : scanZ z = .ok (textAt z) := hf z hfn
      have hop := ho (textAt z) hon (by simp [hfn])
      obtain ⟨p, w1, e1, hr, hk, hwr⟩ := hop.put t
      simp only [hz, bind_ok, e1]
      refine ⟨_, rfl, rfl, hfn.symm ▸ rfl, he, fun u hu => hu.stable hwr hk, fun u => resolve_rewritten (hwr.rewritten hk) true u, hwr.room, by simp [errPart], fun q => ?_⟩
      simp only [filePart, List.filterMap_cons, List.filterMap_nil, Option.map_some, Option.bind_some, hr, fileKept, if_true]
      rw [hwr.kind]
      by_cases hq : q = p
      · simp [hq]
      · rw [if_neg hq, if_neg (Ne.symm hq)]
  · rw [if_neg hon, if_neg hon]
    exact ⟨s, rfl, rfl, rfl, he, fun _ h => h, fun _ => rfl, rfl, by simp [errPart], fun p => by simp [filePart, fileKept]⟩

theorem fileKept_append (R : Fs.Path → Option Nat) (p : Fs.Path) : ∀ (a b : List (Fs.Path × Bool × List UInt8)) (k : Option Kind),
    fileKept R p k (a ++ b) = fileKept R p (fileKept R p k a) b
  | [], _, _ => rfl
  | _ :: a, b, _ => fileKept_append R p a b _

theorem run_debug {cs : List Debug.Call} : ∀ {s : Debug.St}, IsOptText s.filename → s.errOpen = true → (∀ c ∈ cs, GoodDebugCall c) →
    (∀ e ∈ debugEmits s.on (s.filename.map textAt) cs, ∀ t, e.1 = some t → Openable s.world t) →
    ∃ s' b, Debug.run s cs = .ok (s', b) ∧ s'.err = s.err ++ errPart (debugEmits s.on (s.filename.map textAt) cs) ∧
      (∀ p, kind s'.world p = fileKept s.world.room p (kind s.world p) (filePart s.world (debugEmits s.on (s.filename.map textAt) cs))) ∧
      (b = true ↔ ∃ m, Debug.Call.check false true m ∈ cs) := by
  induction cs with
  | nil =>
    intro s _ _ _ _
    exact ⟨s, false, rfl, by simp [debugEmits, errPart], fun p => by simp [debugEmits, filePart, fileKept], by simp⟩
  | cons c cs ih =>
    intro s hf he hg ho
    have hgc := hg c (by simp)
    have hgs : ∀ c ∈ cs, GoodDebugCall c := fun c hc => hg c (by simp [hc])
    have join : ∀ {s1 s' : Debug.St} {es es' : List (Option Text × Text)}, Emitted s s1 es → s'.err = s1.err ++ errPart es' →
        (∀ p, kind s'.world p = fileKept s1.world.room p (kind s1.world p) (filePart s1.world es')) →
        s'.err = s.err ++ errPart (es ++ es') ∧ ∀ p, kind s'.world p = fileKept s.world.room p (kind s.world p) (filePart s.world (es ++ es')) := by
      intro s1 s' es es' hE h1 h2
      refine ⟨by rw [h1, hE.err]; simp [errPart], fun p => ?_⟩
      rw [h2, hE.kind, filePart_congr hE.resolve, hE.room, ← fileKept_append]
      congr 1
      simp [filePart]
    cases c with
    | redirect z =>
      obtain ⟨s', b, g1, g2, g3, g4⟩ := ih (s := { s with filename := z }) hgc he hgs ho
      exact ⟨s', b, by simpa [Debug.run, Debug.run1, Debug.redirect] using g1, g2, g3, by simpa using g4⟩
    | disable off =>
      obtain ⟨s', b, g1, g2, g3, g4⟩ := ih (s := { s with on := !off }) hf he hgs ho
      exact ⟨s', b, by simpa [Debug.run, Debug.run1, Debug.disable] using g1, g2, g3, by simpa using g4⟩
    | check x q m =>
      cases x with
      | true =>
        obtain ⟨s', b, g1, g2, g3, g4⟩ := ih (s := s) hf he hgs ho
        exact ⟨s', b, by simpa [Debug.run, Debug.run1, Debug.check] using g1, g2, g3, by simpa using g4⟩
      | false =>
        simp only [debugEmits] at ho ⊢
        obtain ⟨s1, e, hE⟩ := emit_ok hf he (checkLine m) fun n hon hn => ho (s.filename.map textAt, checkLine m) (by simp [hon]) n hn
        cases q with
        | true =>
          simp only [if_true, List.append_nil] at ho ⊢
          refine ⟨s1, true, ?_, hE.err, hE.kind, by simp⟩
          simp [Debug.run, Debug.run1, Debug.check, text_eq_checkLine, e]
        | false =>
          simp only [Bool.false_eq_true, if_false] at ho ⊢
          have hon := hE.on
          have hfn := hE.filename
          obtain ⟨s', b, g1, g2, g3, g4⟩ := ih (s := s1) (by rw [hfn]; exact hf) hE.errOpen hgs
            (fun e' he' t' ht' => hE.open_ t' (ho e' (by rw [hon, hfn] at he'; simp [he']) t' ht'))
          rw [hon, hfn] at g2 g3
          obtain ⟨j1, j2⟩ := join hE g2 g3
          refine ⟨s', b, ?_, j1, j2, by simpa using g4⟩
          simpa [Debug.run, Debug.run1, Debug.check, text_eq_checkLine, e] using g1
    | printf n sub body =>
      simp only [debugEmits] at ho ⊢
      obtain ⟨s1, e, hE⟩ := emit_ok hf he (n ++ chars' " " ++ sub ++ chars' " " ++ body)
        fun t hon hn => ho (s.filename.map textAt, n ++ chars' " " ++ sub ++ chars' " " ++ body) (by simp [hon]) t hn
      have hon := hE.on
      have hfn := hE.filename
      obtain ⟨s', b, g1, g2, g3, g4⟩ := ih (s := s1) (by rw [hfn]; exact hf) hE.errOpen hgs
        (fun e' he' t' ht' => hE.open_ t' (ho e' (by rw [hon, hfn] at he'; simp [he']) t' ht'))
      rw [hon, hfn] at g2 g3
      obtain ⟨j1, j2⟩ := join hE g2 g3
      refine ⟨s', b, ?_, j1, j2, by simpa using g4⟩
      have h1 : chars' " " = [32] := by decide +kernel
      rw [h1] at e
      simp only [List.append_assoc, List.cons_append, List.nil_append] at e
      simpa [Debug.run, Debug.run1, Debug.printf, e] using g1

/-- **C76** (partial: the files that are written to can be opened, see `C76_stderr_closed`).  For any calls since the start of the program: each failed check
writes one line, and each `vt_debug_printf` its text, to the file set last or to `stderr`, unless the output is switched off; nothing else is written; the
program is terminated exactly by a failed check that asks for it. -/
theorem C76_history_partial {cs : List Debug.Call} {w : World} (hg : ∀ c ∈ cs, GoodDebugCall c)
    (ho : ∀ e ∈ debugEmits true none cs, ∀ t, e.1 = some t → Openable w t) :
    ∃ s' b, Debug.run { world := w } cs = .ok (s', b) ∧ s'.err = errPart (debugEmits true none cs) ∧
      (∀ p, kind s'.world p = fileKept w.room p (kind w p) (filePart w (debugEmits true none cs))) ∧
      (b = true ↔ ∃ m, Debug.Call.check false true m ∈ cs) := by
  have := run_debug (cs := cs) (s := { world := w }) (by intro m hm; cases hm) rfl hg ho
  simpa using this

/-- **C76** (counterexample) If the file cannot be opened, the text goes to `stderr`, which is then closed: the next output there is undefined. -/
theorem C76_stderr_closed {s : Debug.St} (hon : s.on = true) (he : s.errOpen = true) {z : Mem} {t : Text} (hf : s.filename = some z)
    (hz : scanZ z = .ok t) (ho : openW s.world true t = none) (m m' : Debug.Msg) (x : Bool) :
    Debug.run s [.check false false m, .check false x m'] = .ub ∧ Debug.run s [.check false false m, .redirect none, .check false x m'] = .ub := by
  have e : Debug.emit s (Debug.text m) = .ok { s with err := s.err ++ Debug.text m, errOpen := false } := by
    simp [Debug.emit, hon, hf, hz, ho, Debug.toErr, he]
  have e2 : ∀ t, Debug.emit { s with err := s.err ++ Debug.text m, errOpen := false } t = .ub := by
    intro t; simp [Debug.emit, hon, hf, hz, ho, Debug.toErr]
  have e3 : ∀ t, Debug.emit { s with err := s.err ++ Debug.text m, errOpen := false, filename := none } t = .ub := by
    intro t; simp [Debug.emit, hon, Debug.toErr]
  constructor
  · simp [Debug.run, Debug.run1, Debug.check, e, e2]
  · simp [Debug.run, Debug.run1, Debug.check, Debug.redirect, e, e3]

example : debugEmits true none [.check true true ⟨[], [], [], [], [], 0, []⟩, .disable true, .check false false ⟨[], [], [], [], [], 0, []⟩, .disable false,
    .check false true ⟨chars' "T", chars' "x > 0", chars' "ENFORCE FAILURE", chars' "a.c", chars' "f", 7, chars' "no"⟩] =
    [(none, chars' "T ENFORCE FAILURE [x > 0] a.c:f:7: no\n")] := by decide +kernel

/-! The full effect, also with files that cannot be opened. -/

/-- What becomes of the texts to be written, if `stderr` is closed or not: a text whose file cannot be opened goes to `stderr`, which is closed after it.  `none`
means that a text is to be written to the closed `stderr`. -/
def fates (w : World) : (closed : Bool) → List (Option Text × Text) → Option (List (Option Text × Text))
  | _, [] => some []
  | closed, (none, x) :: es => if closed then none else (fates w false es).map fun r => (none, x) :: r
  | closed, (some t, x) :: es =>
    if openW w true t = none then (if closed then none else (fates w true es).map fun r => (none, x) :: r)
    else (fates w closed es).map fun r => (some t, x) :: r

theorem fates_congr {w w' : World} (h : ∀ t, openW w' true t = none ↔ openW w true t = none) (es : List (Option Text × Text)) :
    ∀ c, fates w' c es = fates w c es := by
  induction es with
  | nil => intro c; rfl
  | cons e es ih =>
    intro c
    obtain ⟨t, x⟩ := e
    cases t <;> simp only [fates, ih, h]

/-- One text has been written, or none, to the place it was bound for or to `stderr`. -/
structure Emitted' (s s1 : Debug.St) (es : List (Option Text × Text)) : Prop where
  on : s1.on = s.on
  filename : s1.filename = s.filename
  open_ : ∀ u, openW s1.world true u ≠ none → Openable s1.world u
  same : ∀ u, openW s1.world true u = none ↔ openW s.world true u = none
  resolve : ∀ u, resolve s1.world true u = Fs.resolve s.world true u
  room : s1.world.room = s.world.room
  err : s1.err = s.err ++ errPart es
  kind : ∀ p, kind s1.world p = fileKept s.world.room p (Fs.kind s.world p) (filePart s.world es)

/-- Writing one text: undefined, or it has its fate and the rest has the fates that follow. -/
theorem emit_cases {s : Debug.St} (hf : IsOptText s.filename) (ho : ∀ u, openW s.world true u ≠ none → Openable s.world u) (hon : s.on = true) (x : Text) :
    (Debug.emit s x = .ub ∧ ∀ es, fates s.world (!s.errOpen) ((s.filename.map textAt, x) :: es) = none) ∨
    ∃ s1 y, Debug.emit s x = .ok s1 ∧ Emitted' s s1 [y] ∧
      ∀ es, fates s.world (!s.errOpen) ((s.filename.map textAt, x) :: es) = (fates s.world (!s1.errOpen) es).map fun r => y :: r := by
  unfold Debug.emit
  rw [if_pos hon]
  cases hfn : s.filename with
  | none =>
    simp only [Debug.toErr, Option.map_none, fates]
    by_cases he : s.errOpen = true
    · right
      rw [if_pos he]
      refine ⟨_, (none, x), rfl, ⟨rfl, hfn.symm ▸ rfl, ho, fun _ => Iff.rfl, fun _ => rfl, rfl, by simp [errPart], fun p => by simp [filePart, fileKept]⟩, ?_⟩
      simp [he]
    · left
      rw [if_neg he]
      simp [he]
  | some z =>
    have hz : scanZ z = .ok (textAt z) := hf z hfn
    simp only [hz, bind_ok, Option.map_some, fates]
    by_cases hu : openW s.world true (textAt z) = none
    · simp only [hu, if_true, Debug.toErr]
      by_cases he : s.errOpen = true
      · right
        rw [if_pos he]
        refine ⟨{ s with err := s.err ++ x, errOpen := false }, (none, x), rfl,
          ⟨rfl, rfl, ho, fun _ => Iff.rfl, fun _ => rfl, rfl, by simp [errPart], fun p => by simp [filePart, fileKept]⟩, ?_⟩
        simp [he]
      · left
        rw [if_neg he]
        simp [he]
    · right
      have hop := ho _ hu
      obtain ⟨p, w1, e1, hr, hk, hwr⟩ := hop.put x
      have hk2 : (∃ d, kind s.world p = some (.file d)) ∧ s.world.mayWrite p = true ∨ kind s.world p = none ∧ s.world.mayCreate p = true := by
        obtain ⟨p', hr', -, hmw, hkk⟩ := hop
        rw [hr] at hr'
        cases hr'
        rcases hkk with h | h
        · exact .inl ⟨h, hmw⟩
        · exact .inr h
      have hst : ∀ u, openW (put w1 p x) true u = none ↔ openW s.world true u = none := by
        intro u
        constructor
        · intro hn
          by_contra hc
          exact ((ho u hc).stable hwr hk).opens hn
        · exact unopenable_stable hwr hk2
      simp only [e1]
      refine ⟨{ s with world := put w1 p x }, (some (textAt z), x), by rw [hfn], ⟨rfl, rfl, fun u hu => (ho u (fun hn => hu ((hst u).2 hn))).stable hwr hk, hst,
        fun u => resolve_rewritten (hwr.rewritten hk) true u, hwr.room, by simp [errPart], fun q => ?_⟩, ?_⟩
      · simp only [filePart, List.filterMap_cons, List.filterMap_nil, Option.bind_some, hr, Option.map_some, fileKept, if_true]
        rw [hwr.kind]
        by_cases hq : q = p
        · simp [hq]
        · rw [if_neg hq, if_neg (Ne.symm hq)]
      · intro es; simp

theorem run_debug_full {cs : List Debug.Call} : ∀ {s : Debug.St}, IsOptText s.filename → (∀ c ∈ cs, GoodDebugCall c) →
    (∀ u, openW s.world true u ≠ none → Openable s.world u) →
    match fates s.world (!s.errOpen) (debugEmits s.on (s.filename.map textAt) cs) with
    | none => Debug.run s cs = .ub
    | some es => ∃ s' b, Debug.run s cs = .ok (s', b) ∧ s'.err = s.err ++ errPart es ∧
        (∀ p, kind s'.world p = fileKept s.world.room p (kind s.world p) (filePart s.world es)) ∧ (b = true ↔ ∃ m, Debug.Call.check false true m ∈ cs) := by
  induction cs with
  | nil =>
    intro s _ _ _
    simp only [debugEmits, fates]
    exact ⟨s, false, rfl, by simp [errPart], fun p => by simp [filePart, fileKept], by simp⟩
  | cons c cs ih =>
    intro s hf hg ho
    have hgc := hg c (by simp)
    have hgs : ∀ c ∈ cs, GoodDebugCall c := fun c hc => hg c (by simp [hc])
    -- a call that may write the text `x` and, if `quit`, ends the program
    have step : ∀ (x : Text) (quit : Bool), (∀ s1, Debug.emit s x = .ok s1 → Debug.run1 s c = .ok (s1, quit)) →
        (Debug.emit s x = .ub → Debug.run1 s c = .ub) →
        ((∃ m, Debug.Call.check false true m ∈ c :: cs) ↔ quit = true ∨ ∃ m, Debug.Call.check false true m ∈ cs) →
        match fates s.world (!s.errOpen) ((if s.on then [(s.filename.map textAt, x)] else []) ++
            if quit then [] else debugEmits s.on (s.filename.map textAt) cs) with
        | none => Debug.run s (c :: cs) = .ub
        | some es => ∃ s' b, Debug.run s (c :: cs) = .ok (s', b) ∧ s'.err = s.err ++ errPart es ∧
            (∀ p, kind s'.world p = fileKept s.world.room p (kind s.world p) (filePart s.world es)) ∧
            (b = true ↔ ∃ m, Debug.Call.check false true m ∈ c :: cs) := by
      intro x quit h1 h2 hq
      by_cases hon : s.on = true
      · rw [if_pos hon, List.singleton_append]
        rcases emit_cases hf ho hon x with ⟨e, hfate⟩ | ⟨s1, y, e, hE, hfate⟩
        · rw [hfate]
          simp only [Debug.run, h2 e, bind_ub]
        · rw [hfate]
          have hcont : ∀ es', (fates s.world (!s1.errOpen) (if quit then [] else debugEmits s.on (s.filename.map textAt) cs)) = es' →
              match es' with
              | none => Debug.run s (c :: cs) = .ub
              | some es => ∃ s' b, Debug.run s (c :: cs) = .ok (s', b) ∧ s'.err = s.err ++ errPart (y :: es) ∧
                  (∀ p, kind s'.world p = fileKept s.world.room p (kind s.world p) (filePart s.world (y :: es))) ∧
                  (b = true ↔ ∃ m, Debug.Call.check false true m ∈ c :: cs) := by
            intro es' hes
            cases quit with
            | true =>
              simp only [if_true, fates] at hes
              subst hes
              refine ⟨s1, true, by simp [Debug.run, h1 s1 e], hE.err, hE.kind, by rw [hq]; simp⟩
            | false =>
              simp only [Bool.false_eq_true, if_false] at hes
              have hrest := ih (s := s1) (by rw [hE.filename]; exact hf) hgs hE.open_
              rw [hE.on, hE.filename, fates_congr hE.same, hes] at hrest
              have hrun : Debug.run s (c :: cs) = Debug.run s1 cs := by simp [Debug.run, h1 s1 e]
              cases es' with
              | none => simp only at hrest ⊢; rw [hrun, hrest]
              | some es =>
                simp only at hrest ⊢
                obtain ⟨s', b, g1, g2, g3, g4⟩ := hrest
                refine ⟨s', b, by rw [hrun, g1], by rw [g2, hE.err]; simp [errPart], fun p => ?_, by rw [g4, hq]; simp⟩
                rw [g3, hE.kind, filePart_congr hE.resolve, hE.room, ← fileKept_append]
                congr 1
                rw [show y :: es = [y] ++ es from rfl]
                simp only [filePart, List.filterMap_append]
          have := hcont _ rfl
          cases hx : fates s.world (!s1.errOpen) (if quit then [] else debugEmits s.on (s.filename.map textAt) cs) with
          | none => rw [hx] at this; simpa using this
          | some es => rw [hx] at this; simpa using this
      · rw [if_neg hon, List.nil_append]
        have e : Debug.emit s x = .ok s := by unfold Debug.emit; rw [if_neg hon]
        cases quit with
        | true =>
          simp only [if_true, fates]
          exact ⟨s, true, by simp [Debug.run, h1 s e], by simp [errPart], fun p => by simp [filePart, fileKept], by rw [hq]; simp⟩
        | false =>
          simp only [Bool.false_eq_true, if_false]
          have hrun : Debug.run s (c :: cs) = Debug.run s cs := by simp [Debug.run, h1 s e]
          have hrest := ih (s := s) hf hgs ho
          rw [hrun]
          split at hrest
          · exact hrest
          · rename_i es hes
            obtain ⟨s', b, g1, g2, g3, g4⟩ := hrest
            exact ⟨s', b, g1, g2, g3, by rw [g4, hq]; simp⟩
    cases c with
    | redirect z =>
      have := ih (s := { s with filename := z }) hgc hgs ho
      simpa [Debug.run, Debug.run1, Debug.redirect, debugEmits] using this
    | disable off =>
      have := ih (s := { s with on := !off }) hf hgs ho
      simpa [Debug.run, Debug.run1, Debug.disable, debugEmits] using this
    | check x q m =>
      cases x with
      | true =>
        have := ih (s := s) hf hgs ho
        simpa [Debug.run, Debug.run1, Debug.check, debugEmits] using this
      | false =>
        simp only [debugEmits]
        refine step (checkLine m) q ?_ ?_ ?_
        · intro s1 e; simp [Debug.run1, Debug.check, text_eq_checkLine, e]
        · intro e; simp [Debug.run1, Debug.check, text_eq_checkLine, e]
        · cases q <;> simp
    | printf n sub body =>
      have h1 : chars' " " = [32] := by decide +kernel
      simp only [debugEmits]
      have := step (n ++ chars' " " ++ sub ++ chars' " " ++ body) false (by intro s1 e; rw [h1] at e; simp only [Debug.run1, Debug.printf, e, bind_ok])
        (by intro e; rw [h1] at e; simp only [Debug.run1, Debug.printf, e, bind_ub]) (by simp)
      simpa only [Bool.false_eq_true, if_false] using this

/-- **C76** For any calls since the start of the program, also with files that cannot be opened: a text whose file cannot be opened goes to `stderr`, which is then
closed.  If no text is to be written to the closed `stderr`, the texts go where `fates` says and nothing else is written, and the program is terminated exactly
by a failed check that asks for it; otherwise the program is undefined.  (The process may write to the files it creates.) -/
theorem C76_history {cs : List Debug.Call} {w : World} (hg : ∀ c ∈ cs, GoodDebugCall c)
    (hm : ∀ p, kind w p = none → w.mayCreate p = true → w.mayWrite p = true) :
    match fates w false (debugEmits true none cs) with
    | none => Debug.run { world := w } cs = .ub
    | some es => ∃ s' b, Debug.run { world := w } cs = .ok (s', b) ∧ s'.err = errPart es ∧
        (∀ p, kind s'.world p = fileKept w.room p (kind w p) (filePart w es)) ∧ (b = true ↔ ∃ m, Debug.Call.check false true m ∈ cs) := by
  have := run_debug_full (cs := cs) (s := { world := w }) (by intro m hm; cases hm) hg fun _ h => openable_of_opens hm h
  simpa using this

/-- The first text for a file that cannot be opened goes to `stderr`; texts for other files are not affected; a second one is undefined. -/
example : fates exW false [(some (chars' "/no/x"), [1]), (some (chars' "/s/f"), [2])] = some [(none, [1]), (some (chars' "/s/f"), [2])] ∧
    fates exW false [(some (chars' "/no/x"), [1]), (some (chars' "/s/f"), [2]), (none, [3])] = none := by decide +kernel

end Vita
