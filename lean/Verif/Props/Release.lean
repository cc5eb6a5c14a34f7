import Verif.Lemmas.Release
import Verif.Props.Plist
import Verif.Props.StrEdit
import Verif.Props.DateTime
/-!
# C82: debug and release builds

The theorems on call histories (C01, C13, C15, C16) are stated for debug builds, where a call with a wrong argument ends the program.  Here: apart from
that, a release build does the same.  `Agree` is defined in `Verif.Lemmas.Release`: the first outcome is a failed debug check, or the two outcomes
are the same.
-/

namespace Vita
open Out Spec

seal wadd wsub wmul

/-- The same environment, in a debug build. -/
def Env.dbg (E : Env) : Env := { E with debug := true }

theorem Env.dbg_release {E : Env} (h : E.debug = false) : E.dbg.release = E := by
  cases E; cases h; rfl

theorem Agree.ok_eq {a b : Out α} (h : Agree a b) {r : α} (hr : a = .ok r) : b = .ok r := by
  rcases h with h | h | h
  · rw [h] at hr; cases hr
  · rw [h] at hr; cases hr
  · rw [← h, hr]

/-! ### Histories -/

theorem VecCall.run_agree (E : Env) (v : Arr) (c : VecCall) : Agree (c.run E v) (c.run E.release v) := by
  cases c <;> unfold VecCall.run <;> agree

/-- **C82** A history of vec.c calls ends in a debug build as in a release build, unless a debug check fails. -/
theorem C82_vec_history (E : Env) (n es : Nat) (cs : List VecCall) :
    Agree (Vec.create E n es >>= fun v => runVec E v cs) (Vec.create E.release n es >>= fun v => runVec E.release v cs) := by
  have h : ∀ v, Agree (runVec E v cs) (runVec E.release v cs) := by
    induction cs with
    | nil => intro v; exact Agree.refl _
    | cons c cs ih => intro v; exact Agree.bind (VecCall.run_agree E v c) ih
  exact Agree.bind (Vec.create_agree E n es) h

theorem PlOp.run_agree (E : Env) (p : Arr) (c : PlOp) : Agree (c.run E p) (c.run E.release p) := by
  cases c <;> unfold PlOp.run <;> agree

/-- **C82** The same for plist.c. -/
theorem C82_plist_history (E : Env) (n : Nat) (cs : List PlOp) :
    Agree (Plist.create E n >>= fun v => runPl E v cs) (Plist.create E.release n >>= fun v => runPl E.release v cs) := by
  have h : ∀ v, Agree (runPl E v cs) (runPl E.release v cs) := by
    induction cs with
    | nil => intro v; exact Agree.refl _
    | cons c cs ih => intro v; exact Agree.bind (PlOp.run_agree E v c) ih
  exact Agree.bind (Plist.create_agree E n) h

theorem applyOp_agree (E : Env) (k : Nat) (v : Arr) (op : StrOp) : Agree (applyOp E k v op) (applyOp E.release k v op) := by
  cases op <;> unfold applyOp <;> agree

theorem runStr_agree (E : Env) (k : Nat) (ops : List StrOp) : ∀ v, Agree (runStr E k v ops) (runStr E.release k v ops) := by
  induction ops with
  | nil => intro v; exact Agree.refl _
  | cons op ops ih => intro v; exact Agree.bind (applyOp_agree E k v op) ih

/-- **C82** The same for str.c. -/
theorem C82_str_history (E : Env) (k : Nat) (z : Mem) (ops : List StrOp) :
    Agree (Str.create E z >>= fun s => runStr E k s ops) (Str.create E.release z >>= fun s => runStr E.release k s ops) :=
  Agree.bind (Str.create_agree E z) (runStr_agree E k ops)

/-! ### The other functions -/

/-- **C82** The functions of str.c that are not in `StrOp`. -/
theorem C82_str_functions (E : Env) (s : Arr) (o : Option Arr) (z z' z'' : Mem) (l : List Mem) (n fuel : Nat) :
    Agree (Str.createCapacity E n) (Str.createCapacity E.release n) ∧
    Agree (Str.takeOwnership E z) (Str.takeOwnership E.release z) ∧
    Agree (Str.insertBefore E s z z') (Str.insertBefore E.release s z z') ∧
    Agree (Str.insertAfter E s z z') (Str.insertAfter E.release s z z') ∧
    Agree (Str.removeLast E fuel s z) (Str.removeLast E.release fuel s z) ∧
    Agree (Str.replaceLast E fuel s z z') (Str.replaceLast E.release fuel s z z') ∧
    Agree (Str.split E fuel s z) (Str.split E.release fuel s z) ∧
    Agree (Str.splitBetween E o z z' z'') (Str.splitBetween E.release o z z' z'') ∧
    Agree (Str.join E o z l) (Str.join E.release o z l) ∧
    Agree (Str.joinN E o z l) (Str.joinN E.release o z l) ∧
    Agree (Str.popGetFirst E o s z) (Str.popGetFirst E.release o s z) ∧
    Agree (Str.popGetLast E fuel o s z) (Str.popGetLast E.release fuel o s z) ∧
    Agree (Str.equalsN E z z' n) (Str.equalsN E.release z z' n) ∧
    Agree (Str.isNumericZ E z n) (Str.isNumericZ E.release z n) := by
  refine ⟨?_, ?_, ?_, ?_, ?_, ?_, ?_, ?_, ?_, ?_, ?_, ?_, ?_, ?_⟩ <;> agree

/-- **C82** Reading access and copies of vec.c and plist.c, removal with any strategy number, and the span functions. -/
theorem C82_access (E : Env) (v : Arr) (i n es rs : Nat) (q : Ptr) (m val : Mem) (sp : Span) :
    Agree (Vec.removeCode E v i rs) (Vec.removeCode E.release v i rs) ∧ Agree (Plist.removeCode E v i rs) (Plist.removeCode E.release v i rs) ∧
    Agree (Plist.removeElementCode E v q rs) (Plist.removeElementCode E.release v q rs) ∧
    Agree (Vec.get E v i) (Vec.get E.release v i) ∧ Agree (Vec.dup E v) (Vec.dup E.release v) ∧
    Agree (Plist.get E v i) (Plist.get E.release v i) ∧ Agree (Plist.canFind E v q) (Plist.canFind E.release v q) ∧
    Agree (Plist.dup E v) (Plist.dup E.release v) ∧ Agree (Span.from_ E n es) (Span.from_ E.release n es) ∧
    Agree (Span.fromTo E m i n es) (Span.fromTo E.release m i n es) ∧ Agree (Span.get E m sp i) (Span.get E.release m sp i) ∧
    Agree (Span.set E m sp val i) (Span.set E.release m sp val i) := by
  refine ⟨?_, ?_, ?_, ?_, ?_, ?_, ?_, ?_, ?_, ?_, ?_, ?_⟩ <;> agree

/-- **C82** Paths, files, dates and options: the outcome includes the new state of the file system. -/
theorem C82_system (E : Env) (w : Fs.World) (z : Mem) (o : Option Arr) (om : Option Mem) (l : List Mem) (ign : Bool) (pl : List Arr) (fuel n : Nat) (buf : Mem)
    (d : DT.VDT) (opts : List ArgOpt.Opt) :
    Agree (Path.build E o l) (Path.build E.release o l) ∧ Agree (Path.buildN E o l) (Path.buildN E.release o l) ∧
    Agree (Path.basename E fuel o z) (Path.basename E.release fuel o z) ∧ Agree (Path.expandTilda E om z) (Path.expandTilda E.release om z) ∧
    Agree (Path.getCwd E om) (Path.getCwd E.release om) ∧ Agree (Path.dirList E w z ign) (Path.dirList E.release w z ign) ∧
    Agree (Path.dirListRecurse E w ign fuel pl z) (Path.dirListRecurse E.release w ign fuel pl z) ∧
    Agree (Path.mkdirParents E fuel w z) (Path.mkdirParents E.release fuel w z) ∧
    Agree (Path.rmdirRecurse E fuel w z) (Path.rmdirRecurse E.release fuel w z) ∧
    Agree (FileIo.read E w z) (FileIo.read E.release w z) ∧ Agree (FileIo.readToBuffer E w z buf n) (FileIo.readToBuffer E.release w z buf n) ∧
    Agree (DT.toText E d buf n) (DT.toText E.release d buf n) ∧ Agree (DT.toTextPretty E d buf n) (DT.toTextPretty E.release d buf n) ∧
    Agree (ArgOpt.parse E l opts) (ArgOpt.parse E.release l opts) := by
  refine ⟨?_, ?_, ?_, ?_, ?_, ?_, ?_, ?_, ?_, ?_, ?_, ?_, ?_, ?_⟩ <;> agree

/-- **C82** The tracking allocator. -/
theorem C82_mallocator (E : Env) (A : Mal.Allocator) (H : Mal.Heap) (m : Mal.T) (p n : Nat) :
    Agree (Mal.create E A H) (Mal.create E.release A H) ∧ Agree (Mal.alloc E A H m n) (Mal.alloc E.release A H m n) ∧
    Agree (Mal.realloc E A H m p n) (Mal.realloc E.release A H m p n) ∧ Agree (Mal.free E H m p) (Mal.free E.release H m p) := by
  refine ⟨?_, ?_, ?_, ?_⟩ <;> agree

/-- **C82** (partial: the claim is that they agree.)  What `vt_datetime_create`, `vt_datetime_find_week_day` and `vt_datetime_find_year_day` return in a debug
build they return in a release build; where the debug build has no defined behaviour, the moment is before 1970 UTC. -/
theorem C82_date_create_partial (E : Env) (zn : DT.Zone) (d : DT.VDT) (year month mday hour minute second wday yday : Int) :
    (Agree (DT.findWeekDay E zn d) (DT.findWeekDay E.release zn d) ∨ DT.findWeekDay E zn d = .ub ∧ DT.toSecs zn d < 0) ∧
    (Agree (DT.findYearDay E zn d) (DT.findYearDay E.release zn d) ∨ DT.findYearDay E zn d = .ub ∧ DT.toSecs zn d < 0) ∧
    (Agree (DT.create E zn year month mday hour minute second wday yday) (DT.create E.release zn year month mday hour minute second wday yday) ∨
      DT.create E zn year month mday hour minute second wday yday = .ub ∧
        ∃ r, DT.create E.release zn year month mday hour minute second wday yday = .ok r ∧ DT.toSecs zn r < 0) := by
  have hR : ¬ E.release.debug = true := by simp [Env.release]
  refine ⟨?_, ?_, ?_⟩
  · rw [findWeekDay_out, findWeekDay_out, if_neg (c := E.release.debug = true ∧ _) (fun h => hR h.1)]
    split
    · rename_i h; exact Or.inr ⟨rfl, h.2⟩
    · exact Or.inl (Agree.refl _)
  · rw [findYearDay_out, findYearDay_out, if_neg (c := E.release.debug = true ∧ _) (fun h => hR h.1)]
    split
    · rename_i h; exact Or.inr ⟨rfl, h.2⟩
    · exact Or.inl (Agree.refl _)
  · unfold DT.create
    rw [fillIn_out, fillIn_out, if_neg (c := E.release.debug = true ∧ _) (fun h => hR h.1)]
    split
    · rename_i h
      refine Or.inr ⟨rfl, _, rfl, ?_⟩
      have e := toSecs_congr zn (d := fillVal zn (DT.createBase year month mday hour minute second wday yday))
        (e := DT.createBase year month mday hour minute second wday yday) rfl
      rw [e]
      exact h.2.2
    · exact Or.inl (Agree.refl _)

/-- **C82, refuted for dates.** For every valid date before 1970 UTC whose week day or day of the year is to be filled in, the debug build prints a message
whose argument is missing (no defined behaviour); the release build returns. -/
theorem C82_date_create_refuted (E : Env) (hE : E.debug = true) (zn : DT.Zone) (c : Civil) (hv : c.Valid) (h0 : 0 < c.year) (hs : c.secs < zn.std)
    (wday yday : Int) (hw : ¬ ((1 ≤ wday ∧ wday ≤ 7) ∧ (1 ≤ yday ∧ yday ≤ 366))) :
    DT.create E zn c.year c.month c.day c.hour c.minute c.second wday yday = .ub ∧
    ∃ r, DT.create E.release zn c.year c.month c.day c.hour c.minute c.second wday yday = .ok r ∧ Holds r c :=
  ⟨(C51_returns_partial E zn c hv h0 wday yday).1 ⟨hE, hs, hw⟩, (C51_returns_partial E.release zn c hv h0 wday yday).2 (by simp [Env.release])⟩

/-- Example: the evening of the 31st of December 1969, UTC. -/
example : (⟨1969, 12, 31, 23, 59, 59⟩ : Civil).Valid ∧ exE.debug = true ∧ DT.create exE 0 1969 12 31 23 59 59 3 0 = .ub ∧
    DT.create exE.release 0 1969 12 31 23 59 59 3 0 = .ok ⟨1969, 12, 31, 23, 59, 59, 3, -1⟩ := by decide +kernel

/-! ### What the theorems on debug builds say about release builds -/

theorem seqRun_env {E F : Env} (h : E.allocOk = F.allocOk) {es tmp : Nat} {s : SeqState α} {ops : List (SeqOp α)} {o : Out (SeqState α)}
    (hr : SeqRun E es tmp s ops o) : SeqRun F es tmp s ops o := by
  have step : ∀ s op o, SeqStep (α := α) E es tmp s op o = SeqStep F es tmp s op o := by
    intro s op o
    cases op <;> simp only [SeqStep, withRoom, h]
  induction hr with
  | nil s => exact .nil s
  | cons a _ ih => exact .cons (step _ _ _ ▸ a) ih
  | stop a => exact .stop (step _ _ _ ▸ a)

/-- **C82** C01 in release builds: the outcome is the one specified, unless the specified one is a failed debug check. -/
theorem C82_vec_release (E : Env) (hR : E.debug = false) (hI : E.isoMemcpy = false) (n es : Nat) (hn : 0 < n) (hes : 0 < es) (hsz : n * es < 2 ^ 64)
    (cs : List VecCall) (hf : ∀ c ∈ cs, c.Fits es) (h1 : E.allocOk arrStructSize = true) (h2 : E.allocOk (n * es) = true) :
    ∃ o, SeqRun E es es ⟨[], n⟩ (cs.map (VecCall.toOp es)) o ∧
      (o = .exit .dbgAssert ∨ o = .exit .cAssert ∨ (Vec.create E n es >>= fun v => runVec E v cs).mapOk Arr.abs = o) := by
  have h := (C01_vec_refines_sequence E.dbg rfl hI n es hn hes hsz cs hf).1 ⟨h1, h2⟩
  refine ⟨_, seqRun_env (E := E.dbg) (F := E) rfl h, ?_⟩
  have ha := C82_vec_history E.dbg n es cs
  rw [Env.dbg_release hR] at ha
  rcases ha with ha | ha | ha
  · left; rw [ha]; rfl
  · right; left; rw [ha]; rfl
  · right; right; rw [ha]

theorem strStep_env {E F : Env} (h : E.allocOk = F.allocOk) (s : StrState) (op : StrOp) (o : Out StrState) : StrStep E s op o = StrStep F s op o := by
  cases op <;> simp only [StrStep, store, Rewritten, Env.Refuses, h]

theorem strRun_env {E F : Env} (h : E.allocOk = F.allocOk) {s : StrState} {ops : List StrOp} {o : Out StrState} (hr : StrRun E s ops o) : StrRun F s ops o := by
  induction hr with
  | nil s => exact .nil s
  | cons a _ ih => exact .cons (strStep_env h _ _ _ ▸ a) ih
  | stop a => exact .stop (strStep_env h _ _ _ ▸ a)

theorem legalRun_env {E F : Env} (h : E.allocOk = F.allocOk) {s : StrState} {ops : List StrOp} (hr : LegalRun E s ops) : LegalRun F s ops := by
  induction hr with
  | nil s => exact .nil s
  | cons a _ ih => exact .cons a (fun s' hs => ih s' (by rw [strStep_env h]; exact hs))

/-- **C82** C15 in release builds: the string stays well formed and its text is the specified one, unless the specification is a failed debug check. -/
theorem C82_str_release {E : Env} (hR : E.debug = false) {k : Nat} (hk : 1 ≤ k) (ops : List StrOp) {v : Arr} {t : Text} (h : IsStr v t)
    (hl : LegalRun E ⟨t, v.cap⟩ ops) :
    (∃ v' t', runStr E k v ops = .ok v' ∧ IsStr v' t' ∧ StrRun E ⟨t, v.cap⟩ ops (.ok ⟨t', v'.cap⟩)) ∨
    (runStr E k v ops = .exit .alloc ∧ StrRun E ⟨t, v.cap⟩ ops (.exit .alloc)) ∨
    (runStr E k v ops = .exit .enforce ∧ StrRun E ⟨t, v.cap⟩ ops (.exit .enforce)) ∨
    StrRun E ⟨t, v.cap⟩ ops (.exit .dbgAssert) ∨ StrRun E ⟨t, v.cap⟩ ops (.exit .cAssert) := by
  have ha := runStr_agree E.dbg k ops v
  rw [Env.dbg_release hR] at ha
  rcases C15_string_wellformed_partial (E := E.dbg) rfl hk ops h (legalRun_env (E := E) (F := E.dbg) rfl hl) with ⟨v', t', e, i, r⟩ | ⟨w, e, r⟩
  · exact Or.inl ⟨v', t', ha.ok_eq e, i, strRun_env (E := E.dbg) (F := E) rfl r⟩
  · have r := strRun_env (E := E.dbg) (F := E) rfl r
    cases w with
    | dbgAssert => exact Or.inr (Or.inr (Or.inr (Or.inl r)))
    | cAssert => exact Or.inr (Or.inr (Or.inr (Or.inr r)))
    | enforce =>
      rw [e] at ha
      rcases ha with ha | ha | ha
      · cases ha
      · cases ha
      · exact Or.inr (Or.inr (Or.inl ⟨ha.symm, r⟩))
    | alloc =>
      rw [e] at ha
      rcases ha with ha | ha | ha
      · cases ha
      · cases ha
      · exact Or.inr (Or.inl ⟨ha.symm, r⟩)

/-- A release build. -/
def exR : Env := exE.release

-- A history that no debug check stops, in both builds; and one that a debug check stops, which goes on in a release build.
example : (Vec.create exE 2 1 >>= fun v => runVec exE v [.pushBack [some 7], .pushFront [some 8], .removeStable 0]).mapOk (·.elems) =
    (Vec.create exR 2 1 >>= fun v => runVec exR v [.pushBack [some 7], .pushFront [some 8], .removeStable 0]).mapOk (·.elems) ∧
    (Vec.create exR 2 1 >>= fun v => runVec exR v [.pushBack [some 7], .pushFront [some 8], .removeStable 0]).mapOk (·.len) = .ok 1 := by
  constructor <;> decide +kernel
example : (Vec.create exE 2 1 >>= fun v => runVec exE v [.pushBack [some 7], .set [some 9] 1]) = .exit .dbgAssert ∧
    (Vec.create exR 2 1 >>= fun v => runVec exR v [.pushBack [some 7], .set [some 9] 1]).mapOk (·.len) = .ok 1 := by
  constructor <;> decide +kernel
example : LegalRun exR ⟨[97], 1⟩ [.append (zstr [98, 99]), .toUpper] := by
  refine .cons ⟨?_, ?_⟩ fun s h => .cons trivial fun s h => .nil _ <;> decide +kernel

end Vita
