import Verif.Base.Outcome
/-!
# Specification of sequences (vectors, pointer lists)

What a user expects of a growable array, on mathematical lists.  Nothing here refers to the model.
-/

namespace Vita.Spec

/-- Delete the element at `i` by moving the last element into its place. -/
def swapRemove (l : List α) (i : Nat) : List α :=
  match l.getLast? with
  | none => []
  | some x => (l.set i x).dropLast

/-- Insert `x` before position `i`. -/
def insertAt (l : List α) (i : Nat) (x : α) : List α := l.take i ++ x :: l.drop i

/-- Delete the element at `i`, keeping the order of the others. -/
def removeAt (l : List α) (i : Nat) : List α := l.take i ++ l.drop (i + 1)

/-- Index of the first element equal to `x`, or -1. -/
def IsFirstIndex (l : List α) (x : α) (r : Int) : Prop :=
  (r = -1 ∧ x ∉ l) ∨
  (∃ i : Nat, r = i ∧ l[i]? = some x ∧ ∀ j : Nat, j < i → l[j]? ≠ some x)

/-- Calling `f` on the members of a list in order, with the index of each: the state of `f` is handed
from call to call, and each member is replaced by what `f` makes of it. -/
def visit (f : σ → α → Nat → σ × α) (i : Nat) : List α → σ → List α × σ
  | [], st => ([], st)
  | x :: l, st =>
    let rest := visit f (i + 1) l (f st x i).1
    ((f st x i).2 :: rest.1, rest.2)

/-- Operations of a growable array holding values of type `α`. -/
inductive SeqOp (α : Type)
  | pushBack (x : α)
  | pushFront (x : α)
  | insert (x : α) (i : Nat)
  | set (x : α) (i : Nat)
  | removeStable (i : Nat)
  | removeFast (i : Nat)
  | pop
  | clear
  | reserve (n : Nat)
  | resize (n : Nat)
  | shrink

/-- Abstract state: the elements and the number of slots. -/
structure SeqState (α : Type) where
  elems : List α
  cap : Nat

/-- Outcome of an operation that first needs a slot for one more element: a full array gets three
times the slots (if the memory request is granted), a non-full one stays. -/
def withRoom (E : Env) (es : Nat) (s : SeqState α) (l : List α) : Out (SeqState α) :=
  if s.elems.length < s.cap then .ok ⟨l, s.cap⟩
  else if E.allocOk (3 * s.cap * es) then .ok ⟨l, 3 * s.cap⟩
  else .exit .alloc

/-- The specified outcome `o` of operation `op` in state `s`, for elements of `es` bytes, in a debug
build.  It is a function of the state except for `resize`, which may add unspecified elements.
`tmp` is the number of bytes of temporary memory the fast removal asks for. -/
def SeqStep (E : Env) (es tmp : Nat) (s : SeqState α) (op : SeqOp α) (o : Out (SeqState α)) : Prop :=
  match op with
  | .pushBack x => o = withRoom E es s (s.elems ++ [x])
  | .pushFront x => o = withRoom E es s (x :: s.elems)
  | .insert x i =>
      if i < s.elems.length then o = withRoom E es s (insertAt s.elems i x)
      else o = .exit .dbgAssert
  | .set x i =>
      if i < s.elems.length then o = .ok ⟨s.elems.set i x, s.cap⟩ else o = .exit .dbgAssert
  | .removeStable i =>
      if i < s.elems.length then o = .ok ⟨removeAt s.elems i, s.cap⟩ else o = .exit .dbgAssert
  | .removeFast i =>
      if i < s.elems.length then
        if tmp = 0 ∨ E.allocOk tmp then o = .ok ⟨swapRemove s.elems i, s.cap⟩ else o = .exit .alloc
      else o = .exit .dbgAssert
  | .pop => o = .ok ⟨s.elems.dropLast, s.cap⟩
  | .clear => o = .ok ⟨[], s.cap⟩
  | .reserve n =>
      if n = 0 then o = .exit .dbgAssert
      else if E.allocOk ((s.cap + n) * es) then o = .ok ⟨s.elems, s.cap + n⟩
      else o = .exit .alloc
  | .resize n =>
      if n = 0 then o = .exit .dbgAssert
      else if n = s.cap ∨ E.allocOk (n * es) then
        ∃ extra, o = .ok ⟨s.elems.take n ++ extra, n⟩ ∧
          extra.length = n - s.elems.length
      else o = .exit .alloc
  | .shrink =>
      if s.elems.length = s.cap then o = .ok s
      else if s.elems.length = 0 then o = .exit .cAssert
      else if E.allocOk (s.elems.length * es) then o = .ok ⟨s.elems, s.elems.length⟩
      else o = .exit .alloc

/-- Specified outcomes of a history of operations: it stops at the first operation that does not
return. -/
inductive SeqRun (E : Env) (es tmp : Nat) : SeqState α → List (SeqOp α) → Out (SeqState α) → Prop
  | nil (s) : SeqRun E es tmp s [] (.ok s)
  | cons {s s' op ops o} : SeqStep E es tmp s op (.ok s') → SeqRun E es tmp s' ops o →
      SeqRun E es tmp s (op :: ops) o
  | stop {s op ops w} : SeqStep E es tmp s op (.exit w) → SeqRun E es tmp s (op :: ops) (.exit w)

end Vita.Spec
