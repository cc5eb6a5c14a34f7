import Verif.Props.Handles
/-!
# Programs that use files keep no handles (C136)
-/

namespace Vita
open Out Spec Fs
seal wadd wsub wmul

open Handles (Fds acquire use close fresh)

/-- The calls of a program that open files and directories, with the formatted texts. -/
inductive Spec.OpenCall
  | read (z : Mem)
  | readToBuffer (z buf : Mem) (n : Nat)
  | writefc (z : Mem) (append ln : Bool) (s : List UInt8)
  | dirList (z : Mem) (ign : Bool)
  | dirListRecurse (z : Mem) (ign : Bool) (pl : List Arr)
  | rmdirRecurse (z : Mem)
  | log (z : Option Mem) (l : Log.Level) (expr : Bool) (m : Log.Msg)

/-- One call: the loggers with the file system, whether the program has ended, and the handles. -/
def openCall (E : Env) (s : Log.St) (f : Fds) : OpenCall → Out ((Log.St × Bool) × Fds)
  | .read z => (Handles.read E s.world z f).mapOk fun r => ((s, false), r.2)
  | .readToBuffer z buf n => (Handles.readToBuffer E s.world z buf n f).mapOk fun r => ((s, false), r.2)
  | .writefc z a ln t => (Handles.writefc s.world z a ln t f).mapOk fun r => (({ s with world := r.1.1 }, false), r.2)
  | .dirList z ign => (Handles.dirList E s.world z ign f).mapOk fun r => ((s, false), r.2)
  | .dirListRecurse z ign pl => (Handles.dirListRecurse E s.world ign maxPath pl z f).mapOk fun r => ((s, false), r.2)
  | .rmdirRecurse z => (Handles.rmdirRecurse E maxPath s.world z f).mapOk fun r => (({ s with world := r.1.1 }, false), r.2)
  | .log z l e m => Handles.log s z l e m f

/-- The calls one after the other, until the program ends. -/
def openCalls (E : Env) : Log.St → Fds → List OpenCall → Out ((Log.St × Bool) × Fds)
  | s, f, [] => .ok ((s, false), f)
  | s, f, c :: cs => do
    let r ← openCall E s f c
    if r.1.2 then .ok r else openCalls E r.1.1 r.2 cs

theorem mapOk_eq_ok {α β : Type} {g : α → β} {o : Out α} {b : β} : o.mapOk g = .ok b ↔ ∃ a, o = .ok a ∧ g a = b := by
  cases o <;> simp

/-- The handles after the call are those before it. -/
def KeepsFds {α : Type} (o : Out (α × Fds)) (f : Fds) : Prop := ∀ x, o = .ok x → x.2 = f

theorem KeepsFds.bind {α β : Type} {f : Fds} {o : Out α} {g : α → Out (β × Fds)} (h : ∀ a, o = .ok a → KeepsFds (g a) f) : KeepsFds (o >>= g) f := by
  intro x hx
  obtain ⟨a, h1, h2⟩ := bind_eq_ok.1 hx
  exact h a h1 x h2

theorem KeepsFds.ok {α : Type} {f : Fds} (a : α) : KeepsFds (.ok (a, f)) f := by
  rintro _ ⟨⟩
  rfl

theorem KeepsFds.mapOk {α : Type} {f : Fds} (o : Out α) : KeepsFds (o.mapOk (·, f)) f := by
  intro x hx
  obtain ⟨a, -, rfl⟩ := mapOk_eq_ok.1 hx
  rfl

theorem keeps_recurseLoop {E : Env} {w : World} {ign : Bool} {z : Mem} {h : Nat} {rec : List Arr → Mem → Fds → Out (Option (List Arr) × Fds)} {f : Fds}
    (hrec : ∀ pl z, KeepsFds (rec pl z f) f) : ∀ (ns : List Name) (st : Arr) (pl : List Arr), KeepsFds (Handles.recurseLoop E w ign z h rec ns st pl f) f
  | [], st, pl => by
    rw [Handles.recurseLoop]
    exact .bind fun _ _ => .ok _
  | n :: ns, st, pl => by
    rw [Handles.recurseLoop]
    refine .bind fun _ _ => .bind fun b _ => ?_
    split
    · exact keeps_recurseLoop hrec ns st pl
    · refine .bind fun s1 _ => .bind fun s2 _ => .bind fun s3 _ => .bind fun t _ => .bind fun r hr => ?_
      have hf : r.2 = f := by
        split at hr
        · exact hrec _ _ _ hr
        · cases hr
          rfl
      obtain ⟨o, f'⟩ := r
      cases hf
      cases o with
      | none => exact .ok _
      | some pl => exact .bind fun d _ => .bind fun s4 _ => keeps_recurseLoop hrec ns s4 _

theorem keeps_dirListRecurse {E : Env} {w : World} {ign : Bool} : ∀ (j : Nat) (pl : List Arr) (z : Mem) (f : Fds), KeepsFds (Handles.dirListRecurse E w ign j pl z f) f
  | 0, pl, z, f => by
    intro x hx
    cases hx
  | j + 1, pl, z, f => by
    rw [Handles.dirListRecurse]
    refine .bind fun t _ => ?_
    split
    · exact .ok _
    · by_cases hf : f.limit ≤ f.open_.length
      · rw [acquire_full hf]
        cases readdir w t <;> exact .ok _
      · rw [acquire_room (Nat.lt_of_not_le hf)]
        cases readdir w t with
        | none => exact .ok _
        | some ns =>
          refine .bind fun st _ => .bind fun r hr => ?_
          have := keeps_recurseLoop (fun pl z => keeps_dirListRecurse j pl z _) _ _ _ r hr
          obtain ⟨r, f'⟩ := r
          cases this
          simp only [close_new, bind_ok]
          exact .ok _

theorem keeps_rmdirRecurse {E : Env} {w : World} (j : Nat) (z : Mem) (f : Fds) : KeepsFds (Handles.rmdirRecurse E j w z f) f := by
  unfold Handles.rmdirRecurse
  refine .bind fun t _ => ?_
  split
  · exact .ok _
  · refine .bind fun r hr => ?_
    have := keeps_dirListRecurse _ _ _ _ r hr
    obtain ⟨dl, f'⟩ := r
    cases this
    simp only
    split
    · exact .ok _
    · exact .ok _
    · exact .bind fun _ _ => .ok _

theorem keeps_single (E : Env) (w : World) (z : Mem) (f : Fds) :
    KeepsFds (Handles.read E w z f) f ∧ (∀ buf n, KeepsFds (Handles.readToBuffer E w z buf n f) f) ∧
    (∀ append ln s, KeepsFds (Handles.writefc w z append ln s f) f) ∧ (∀ ign, KeepsFds (Handles.dirList E w z ign f) f) := by
  by_cases hf : f.limit ≤ f.open_.length
  · refine ⟨?_, fun buf n => ?_, fun append ln s => ?_, fun ign => ?_⟩
    · unfold Handles.read
      simp only [acquire_full hf]
      refine .bind fun t _ => ?_
      cases openR w t <;> exact .ok _
    · unfold Handles.readToBuffer
      simp only [acquire_full hf]
      refine .bind fun t _ => .bind fun _ _ => ?_
      cases openR w t <;> exact .ok _
    · unfold Handles.writefc
      simp only [acquire_full hf]
      exact .bind fun t _ => .ok _
    · unfold Handles.dirList
      simp only [acquire_full hf]
      refine .bind fun t _ => ?_
      split
      · exact .ok _
      · cases readdir w t <;> exact .ok _
  · obtain ⟨h1, h2, h3, h4⟩ := C136_closed (Nat.lt_of_not_le hf) E w z
    refine ⟨h1 ▸ .mapOk _, fun buf n => h2 buf n ▸ .mapOk _, fun append ln s => h3 append ln s ▸ .mapOk _, fun ign => h4 ign ▸ .mapOk _⟩

theorem keeps_log {s : Log.St} {f : Fds} (z : Option Mem) (l : Log.Level) (e : Bool) (m : Log.Msg) : KeepsFds (Handles.log s z l e m f) f := by
  unfold Handles.log
  split
  · refine .bind fun t _ => ?_
    split
    · exact .bind fun _ _ => .ok _
    · by_cases hf : f.limit ≤ f.open_.length
      · simp only [acquire_full hf]
        exact .ok _
      · simp only [acquire_room (Nat.lt_of_not_le hf)]
        cases openW s.world true t with
        | none => exact .ok _
        | some x =>
          obtain ⟨w', p⟩ := x
          simp only [use_new, close_new, bind_ok]
          exact .ok _
  · exact .ok _

theorem keeps_openCall {E : Env} {s : Log.St} {f : Fds} : ∀ (c : OpenCall), KeepsFds (openCall E s f c) f := by
  have key : ∀ {α β : Type} {o : Out (α × Fds)} {g : α × Fds → β}, KeepsFds o f → KeepsFds (o.mapOk fun r => (g r, r.2)) f := by
    intro α β o g h x hx
    obtain ⟨r, hr, rfl⟩ := mapOk_eq_ok.1 hx
    exact h r hr
  intro c
  cases c with
  | read z => exact key (keeps_single E s.world z f).1
  | readToBuffer z buf n => exact key ((keeps_single E s.world z f).2.1 buf n)
  | writefc z a ln t => exact key ((keeps_single E s.world z f).2.2.1 a ln t)
  | dirList z ign => exact key ((keeps_single E s.world z f).2.2.2 ign)
  | dirListRecurse z ign pl => exact key (keeps_dirListRecurse _ _ _ _)
  | rmdirRecurse z => exact key (keeps_rmdirRecurse _ _ _)
  | log z l e m => exact keeps_log z l e m

/-- **C136**, all programs: after any calls, in whatever file system, however many handles can be had and whatever fails, the handles of the process are those from before; so a program
that runs for ever does not run out of them. -/
theorem C136_program {E : Env} (cs : List OpenCall) {s : Log.St} {f : Fds} {r : (Log.St × Bool) × Fds} (h : openCalls E s f cs = .ok r) : r.2 = f := by
  induction cs generalizing s f with
  | nil =>
    cases h
    rfl
  | cons c cs ih =>
    rw [openCalls] at h
    obtain ⟨x, h1, h2⟩ := bind_eq_ok.1 h
    have hx := keeps_openCall c x h1
    split at h2
    · cases h2
      exact hx
    · rw [ih h2, hx]

-- A file is written, logged to, read, and listed with one handle; then removed with its directory.
example : (openCalls { exE with debug := false } { names := Log.initNames, world := exDeep, err := [] } (exFds 1)
    [.writefc (zstr (chars' "/a/b/c/g")) false false [65], .log (some (zstr (chars' "/a/b/c/g"))) .info false { now := [], zexpr := none, file := [], line := 7, body := [] },
      .read (zstr (chars' "/a/b/c/g")), .dirListRecurse (zstr (chars' "/a")) false [], .rmdirRecurse (zstr (chars' "/a/b/c"))]).mapOk
      (fun r => (kind r.1.1.world [[97], [98], [99]], kind r.1.1.world [[97], [98], [120]], r.2)) = .ok (none, some (.file []), exFds 1) := by decide +kernel

end Vita
