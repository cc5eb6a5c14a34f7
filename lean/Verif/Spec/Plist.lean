import Verif.Spec.Seq
/-!
# Specification of pointer lists

A mathematical list of pointers (64-bit patterns, NULL = 0).  Nothing here refers to the model.
-/

namespace Vita.Spec

/-- Operations of a pointer list. -/
inductive PlOp
  | pushBack (q : BitVec 64)
  | pushFront (q : BitVec 64)
  | insert (q : BitVec 64) (i : Nat)
  | set (q : BitVec 64) (i : Nat)
  | removeStable (i : Nat)
  | removeFast (i : Nat)
  | removeElement (q : BitVec 64)
  | removeElementFast (q : BitVec 64)
  | pop
  | clear
  | reserve (n : Nat)
  | shrink

/-- Guard: outcome `o` if `c`, else termination by an assertion. -/
def guardOp (c : Prop) [Decidable c] (o : Out α) : Out α := if c then o else .exit .dbgAssert

/-- The specified outcome of one operation, in a debug build.  NULL is never stored. -/
def plStep (E : Env) (s : SeqState (BitVec 64)) : PlOp → Out (SeqState (BitVec 64))
  | .pushBack q => guardOp (q ≠ 0) (withRoom E 8 s (s.elems ++ [q]))
  | .pushFront q => guardOp (q ≠ 0) (withRoom E 8 s (q :: s.elems))
  | .insert q i => guardOp (q ≠ 0 ∧ i < s.elems.length) (withRoom E 8 s (insertAt s.elems i q))
  | .set q i => guardOp (q ≠ 0 ∧ i < s.elems.length) (.ok ⟨s.elems.set i q, s.cap⟩)
  | .removeStable i => guardOp (i < s.elems.length) (.ok ⟨removeAt s.elems i, s.cap⟩)
  | .removeFast i => guardOp (i < s.elems.length) (.ok ⟨swapRemove s.elems i, s.cap⟩)
  | .removeElement q => guardOp (q ≠ 0) (.ok ⟨s.elems.erase q, s.cap⟩)
  | .removeElementFast q => guardOp (q ≠ 0)
      (.ok ⟨if q ∈ s.elems then swapRemove s.elems (s.elems.idxOf q) else s.elems, s.cap⟩)
  | .pop => .ok ⟨s.elems.dropLast, s.cap⟩
  | .clear => .ok ⟨[], s.cap⟩
  | .reserve n => guardOp (0 < n)
      (if E.allocOk ((s.cap + n) * 8) then .ok ⟨s.elems, s.cap + n⟩ else .exit .alloc)
  | .shrink =>
      if s.elems.length = s.cap then .ok s
      else if s.elems = [] then .exit .cAssert
      else if E.allocOk (s.elems.length * 8) then .ok ⟨s.elems, s.elems.length⟩
      else .exit .alloc

/-- Outcome of a history: stops at the first operation that does not return. -/
def plRun (E : Env) : SeqState (BitVec 64) → List PlOp → Out (SeqState (BitVec 64))
  | s, [] => .ok s
  | s, op :: ops => match plStep E s op with
    | .ok s' => plRun E s' ops
    | .exit w => .exit w
    | .ub => .ub
    | .fuel => .fuel

end Vita.Spec
