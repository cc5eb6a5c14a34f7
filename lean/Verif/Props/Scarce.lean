import Verif.Lemmas.Scarce
import Verif.Props.Plist
import Verif.Props.StrEdit
/-!
# C113: lack of memory ends the program and does nothing else

`Env.Poorer E F`: everything granted in `E` is granted in `F`, and the build is the same.  `Scarce` is defined in `Verif.Lemmas.Scarce`: the first outcome is
the end of the program for want of memory, or the two outcomes are the same.  That includes undefined behaviour: what a call does does not depend on how much
memory there is.
-/

namespace Vita
open Out Spec

seal wadd wsub wmul

/-- Everything granted in the first environment is granted in the second; otherwise they are the same. -/
structure Env.Poorer (E F : Env) : Prop where
  debug : E.debug = F.debug
  iso : E.isoMemcpy = F.isoMemcpy
  grant : ∀ n, E.allocOk n = true → F.allocOk n = true

theorem Env.Poorer.eq_less {E F : Env} (h : E.Poorer F) : E = F.less E.allocOk := by
  obtain ⟨h1, h2, h3⟩ := h
  cases E with
  | mk d a i l =>
    cases F with
    | mk d' a' i' l' =>
      simp only at h1 h2 h3
      subst h1 h2
      unfold Env.less
      simp only [Env.mk.injEq, true_and, and_true]
      funext n
      cases hn : a n with
      | false => simp
      | true => simp [h3 n hn]

theorem Scarce.ok_eq {a b : Out α} (h : Scarce a b) {r : α} (hr : a = .ok r) : b = .ok r := by
  rcases h with h | h
  · rw [h] at hr; cases hr
  · rw [← h, hr]

/-! ### Histories -/

theorem VecCall.run_scarce (E : Env) (g : Nat → Bool) (v : Arr) (c : VecCall) : Scarce (c.run (E.less g) v) (c.run E v) := by
  cases c <;> unfold VecCall.run <;> scarce

/-- **C113.** With less memory a history of vec.c calls ends for want of it, or as with more. -/
theorem C113_vec_history {E F : Env} (h : E.Poorer F) (n es : Nat) (cs : List VecCall) :
    Scarce (Vec.create E n es >>= fun v => runVec E v cs) (Vec.create F n es >>= fun v => runVec F v cs) := by
  rw [h.eq_less]
  generalize E.allocOk = g
  have h : ∀ v, Scarce (runVec (F.less g) v cs) (runVec F v cs) := by
    induction cs with
    | nil => intro v; exact Scarce.refl _
    | cons c cs ih => intro v; exact Scarce.bind (VecCall.run_scarce F g v c) ih
  exact Scarce.bind (Vec.create_scarce F g n es) h

theorem PlOp.run_scarce (E : Env) (g : Nat → Bool) (p : Arr) (c : PlOp) : Scarce (c.run (E.less g) p) (c.run E p) := by
  cases c <;> unfold PlOp.run <;> scarce

/-- **C113.** The same for plist.c. -/
theorem C113_plist_history {E F : Env} (h : E.Poorer F) (n : Nat) (cs : List PlOp) :
    Scarce (Plist.create E n >>= fun v => runPl E v cs) (Plist.create F n >>= fun v => runPl F v cs) := by
  rw [h.eq_less]
  generalize E.allocOk = g
  have h : ∀ v, Scarce (runPl (F.less g) v cs) (runPl F v cs) := by
    induction cs with
    | nil => intro v; exact Scarce.refl _
    | cons c cs ih => intro v; exact Scarce.bind (PlOp.run_scarce F g v c) ih
  exact Scarce.bind (Plist.create_scarce F g n) h

theorem applyOp_scarce (E : Env) (g : Nat → Bool) (k : Nat) (v : Arr) (op : StrOp) : Scarce (applyOp (E.less g) k v op) (applyOp E k v op) := by
  cases op <;> unfold applyOp <;> scarce

/-- **C113.** The same for str.c. -/
theorem C113_str_history {E F : Env} (h : E.Poorer F) (k : Nat) (z : Mem) (ops : List StrOp) :
    Scarce (Str.create E z >>= fun s => runStr E k s ops) (Str.create F z >>= fun s => runStr F k s ops) := by
  rw [h.eq_less]
  generalize E.allocOk = g
  have h : ∀ v, Scarce (runStr (F.less g) k v ops) (runStr F k v ops) := by
    induction ops with
    | nil => intro v; exact Scarce.refl _
    | cons op ops ih => intro v; exact Scarce.bind (applyOp_scarce F g k v op) ih
  exact Scarce.bind (Str.create_scarce F g z) h

/-- **C113.** A history that gets through with little memory gets through with more, to the same end. -/
theorem C113_more_memory {E F : Env} (h : E.Poorer F) :
    (∀ n es cs r, (Vec.create E n es >>= fun v => runVec E v cs) = .ok r → (Vec.create F n es >>= fun v => runVec F v cs) = .ok r) ∧
    (∀ n cs r, (Plist.create E n >>= fun v => runPl E v cs) = .ok r → (Plist.create F n >>= fun v => runPl F v cs) = .ok r) ∧
    (∀ k z ops r, (Str.create E z >>= fun s => runStr E k s ops) = .ok r → (Str.create F z >>= fun s => runStr F k s ops) = .ok r) :=
  ⟨fun n es cs _ e => (C113_vec_history h n es cs).ok_eq e, fun n cs _ e => (C113_plist_history h n cs).ok_eq e,
    fun k z ops _ e => (C113_str_history h k z ops).ok_eq e⟩

/-! ### The other functions -/

/-- **C113.** The functions of str.c that are not in `StrOp`, and copies of vectors and lists. -/
theorem C113_str_functions {E F : Env} (h : E.Poorer F) (s : Arr) (o : Option Arr) (z z' z'' : Mem) (l : List Mem) (n fuel : Nat) :
    Scarce (Str.createCapacity E n) (Str.createCapacity F n) ∧
    Scarce (Str.takeOwnership E z) (Str.takeOwnership F z) ∧
    Scarce (Str.insertBefore E s z z') (Str.insertBefore F s z z') ∧
    Scarce (Str.insertAfter E s z z') (Str.insertAfter F s z z') ∧
    Scarce (Str.removeLast E fuel s z) (Str.removeLast F fuel s z) ∧
    Scarce (Str.replaceLast E fuel s z z') (Str.replaceLast F fuel s z z') ∧
    Scarce (Str.split E fuel s z) (Str.split F fuel s z) ∧
    Scarce (Str.splitBetween E o z z' z'') (Str.splitBetween F o z z' z'') ∧
    Scarce (Str.join E o z l) (Str.join F o z l) ∧
    Scarce (Str.joinN E o z l) (Str.joinN F o z l) ∧
    Scarce (Str.popGetFirst E o s z) (Str.popGetFirst F o s z) ∧
    Scarce (Str.popGetLast E fuel o s z) (Str.popGetLast F fuel o s z) ∧
    Scarce (Vec.dup E s) (Vec.dup F s) ∧ Scarce (Plist.dup E s) (Plist.dup F s) := by
  rw [h.eq_less]
  generalize E.allocOk = g
  refine ⟨?_, ?_, ?_, ?_, ?_, ?_, ?_, ?_, ?_, ?_, ?_, ?_, ?_, ?_⟩ <;> scarce

/-- **C113.** Paths, files, dates and options: where the call returns, also the new state of the file system is the same. -/
theorem C113_system {E F : Env} (h : E.Poorer F) (w : Fs.World) (z : Mem) (o : Option Arr) (om : Option Mem) (l : List Mem) (ign : Bool) (pl : List Arr)
    (fuel n : Nat) (buf : Mem) (zn : DT.Zone) (year month mday hour minute second wday yday : Int) (opts : List ArgOpt.Opt) :
    Scarce (Path.build E o l) (Path.build F o l) ∧ Scarce (Path.buildN E o l) (Path.buildN F o l) ∧
    Scarce (Path.basename E fuel o z) (Path.basename F fuel o z) ∧ Scarce (Path.expandTilda E om z) (Path.expandTilda F om z) ∧
    Scarce (Path.getCwd E om) (Path.getCwd F om) ∧ Scarce (Path.dirList E w z ign) (Path.dirList F w z ign) ∧
    Scarce (Path.dirListRecurse E w ign fuel pl z) (Path.dirListRecurse F w ign fuel pl z) ∧
    Scarce (Path.mkdirParents E fuel w z) (Path.mkdirParents F fuel w z) ∧
    Scarce (Path.rmdirRecurse E fuel w z) (Path.rmdirRecurse F fuel w z) ∧
    Scarce (FileIo.read E w z) (FileIo.read F w z) ∧ Scarce (FileIo.readToBuffer E w z buf n) (FileIo.readToBuffer F w z buf n) ∧
    Scarce (DT.create E zn year month mday hour minute second wday yday) (DT.create F zn year month mday hour minute second wday yday) ∧
    Scarce (ArgOpt.parse E l opts) (ArgOpt.parse F l opts) := by
  rw [h.eq_less]
  generalize E.allocOk = g
  refine ⟨?_, ?_, ?_, ?_, ?_, ?_, ?_, ?_, ?_, ?_, ?_, ?_, ?_⟩ <;> scarce

/-- **C113.** The tracking allocator. -/
theorem C113_mallocator {E F : Env} (h : E.Poorer F) (A : Mal.Allocator) (H : Mal.Heap) (m : Mal.T) (p n : Nat) :
    Scarce (Mal.create E A H) (Mal.create F A H) ∧ Scarce (Mal.alloc E A H m n) (Mal.alloc F A H m n) ∧
    Scarce (Mal.realloc E A H m p n) (Mal.realloc F A H m p n) ∧ Scarce (Mal.free E H m p) (Mal.free F H m p) := by
  rw [h.eq_less]
  generalize E.allocOk = g
  refine ⟨?_, ?_, ?_, ?_⟩ <;> scarce

/-! ### What happens for want of memory -/

theorem vtCalloc_refused {E : Env} {n : Nat} (h : E.allocOk n = false) (h0 : 0 < n) : vtCalloc E n = .exit .alloc := by
  unfold vtCalloc
  rw [decide_eq_true h0, cassert_true, bind_ok, if_neg (by rw [h]; decide)]

/-- **C113, disagreement with the headers**, which promise NULL (vec.h:44, plist.h:37, str.h:86, 96, 109): a creation for which one of its two requests is
refused ends the program, in debug and release builds. -/
theorem C113_creation_ends (E : Env) (n es : Nat) (hn : 0 < n) (he : 0 < es) (hsz : n * es < 2 ^ 64) :
    (E.allocOk arrStructSize = false ∨ E.allocOk (n * es) = false → Vec.create E n es = .exit .alloc) ∧
    (n * 8 < 2 ^ 64 → E.allocOk arrStructSize = false ∨ E.allocOk (n * 8) = false → Plist.create E n = .exit .alloc) ∧
    (n + 1 < 2 ^ 64 → E.allocOk arrStructSize = false ∨ E.allocOk (n + 1) = false →
      Str.createLen E n = .exit .alloc ∧ Str.createCapacity E n = .exit .alloc) := by
  have two : ∀ {α : Type} {k : Nat} (f : Mem → Out α), 0 < k → E.allocOk arrStructSize = false ∨ E.allocOk k = false →
      (do let _ ← vtCalloc E arrStructSize; let m ← vtCalloc E k; f m) = .exit .alloc := by
    intro α k f hk h
    by_cases h1 : E.allocOk arrStructSize = false
    · rw [vtCalloc_refused h1 (by decide)]; rfl
    · have h2 := h.resolve_left h1
      rw [vtCalloc_refused h2 hk]
      unfold vtCalloc
      rw [show decide (arrStructSize > 0) = true from rfl, cassert_true, bind_ok, if_pos (by simpa using h1), bind_ok, bind_exit]
  have hp : 0 < n * es := Nat.mul_pos hn he
  refine ⟨fun h => ?_, fun h8 h => ?_, fun h1 h => ?_⟩
  · unfold Vec.create
    rw [decide_eq_true hn, dassert_true, bind_ok, decide_eq_true he, dassert_true, bind_ok, wmul_eq hsz]
    exact two _ hp h
  · unfold Plist.create
    rw [decide_eq_true hn, dassert_true, bind_ok, wmul_eq h8]
    exact two _ (by omega) h
  · have e : Str.createLen E n = .exit .alloc := by
      unfold Str.createLen
      rw [decide_eq_true hn, dassert_true, bind_ok, wadd_eq h1, wmul_eq (by omega), Nat.mul_one]
      exact two _ (by omega) h
    refine ⟨e, ?_⟩
    unfold Str.createCapacity
    rw [decide_eq_true hn, dassert_true, bind_ok, e, bind_exit]

/-- An environment that grants only small requests. -/
def exPoor : Env := ⟨true, fun n => n ≤ 64, false, by intro n h; simp at h; omega⟩

/-- Example: the third element does not fit 64 bytes; with more memory the call returns. -/
example : exPoor.allocOk 96 = false ∧ (Vec.create exPoor 2 32 >>= fun v => runVec exPoor v (List.replicate 3 (.pushBack (List.replicate 32 (some 7))))) = .exit .alloc ∧
    (Vec.create exE 2 32 >>= fun v => runVec exE v (List.replicate 3 (.pushBack (List.replicate 32 (some 7))))).mapOk (·.len) = .ok 3 := by
  decide +kernel

end Vita
