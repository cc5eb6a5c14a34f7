import Verif.Base.Mem
/-!
# Variable arguments, as ISO C has them (7.16)
-/

namespace Vita.Spec

/-- What the code does with its lists of variable arguments (`va_list`), which are numbered. -/
inductive VaEvent
  /-- `va_start(i, ..)` -/
  | start (i : Nat)
  /-- `va_copy(d, s)` -/
  | copy (d s : Nat)
  /-- `va_arg(i, ..)` -/
  | arg (i : Nat)
  /-- `i` is given to a function that takes `c` arguments from it, such as `vsnprintf`. -/
  | give (i c : Nat)
  /-- `va_end(i)` -/
  | end_ (i : Nat)
  /-- The function that declares `i` returns. -/
  | ret (i : Nat)
  deriving DecidableEq

/-- The state of a list: not started or ended; about to deliver argument `k`; or indeterminate, since another function took arguments from it. -/
inductive VaState
  | idle
  | next (k : Nat)
  | indeterminate
  deriving DecidableEq

/-- The lists with list `i` set. -/
def setVa (s : Nat → VaState) (i : Nat) (x : VaState) : Nat → VaState := fun j => if j = i then x else s j

/-- One event in a function that was called with `n` variable arguments, and the position of the argument that is read (first): `none` if it is undefined.  A list is started or copied
to only while idle, copied and read from only if it is determined and has the arguments, ended only if it was started; a function does not return before its lists are ended. -/
def vaStep (n : Nat) (s : Nat → VaState) : VaEvent → Option ((Nat → VaState) × List Nat)
  | .start i => if s i = .idle then some (setVa s i (.next 0), []) else none
  | .copy d r =>
    match s d, s r with
    | .idle, .next k => some (setVa s d (.next k), [])
    | _, _ => none
  | .arg i =>
    match s i with
    | .next k => if k < n then some (setVa s i (.next (k + 1)), [k]) else none
    | _ => none
  | .give i c =>
    match s i with
    | .next k => if k + c ≤ n then some (setVa s i .indeterminate, [k]) else none
    | _ => none
  | .end_ i => if s i = .idle then none else some (setVa s i .idle, [])
  | .ret i => if s i = .idle then some (s, []) else none

/-- The events one after the other. -/
def vaRun (n : Nat) : (Nat → VaState) → List VaEvent → Option ((Nat → VaState) × List Nat)
  | s, [] => some (s, [])
  | s, e :: es => do
    let (s, ps) ← vaStep n s e
    let (s, qs) ← vaRun n s es
    some (s, ps ++ qs)

/-- With `n` variable arguments the events are defined from the first to the last, and arguments are read at the positions `ps`. -/
def VaReads (n : Nat) (es : List VaEvent) (ps : List Nat) : Prop := ∃ s, vaRun n (fun _ => .idle) es = some (s, ps)

end Vita.Spec
