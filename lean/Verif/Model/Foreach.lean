import Verif.Base.Outcome
/-!
# The loops of inc/vita/core/core.h

`VT_FOREACH`, `VT_FOREACH_R` and `VT_FOREACH_STEP` stand for the head of a `for` statement over a `size_t`.  The statement behind it is an argument here: it gets the value of
the variable and some state.  It leaves the variable, the bounds and the step alone, and has no `break`.  (The bounds are expressions that are evaluated again in each
round; the macros do not put them in parentheses.)
-/

namespace Vita.Foreach

/-- `VT_FOREACH(iter, from, to)`, core.h:65, at the value `i` of the variable. -/
def foreach (body : Nat → σ → Out σ) (to : Nat) : (fuel : Nat) → (i : Nat) → σ → Out σ
  | 0, _, _ => .fuel
  | fuel + 1, i, s => if i < to then body i s >>= foreach body to fuel (wadd i 1) else .ok s

/-- `VT_FOREACH_R(iter, from, to)`, core.h:68; the loop begins with `i = to`. -/
def foreachR (body : Nat → σ → Out σ) (from_ : Nat) : (fuel : Nat) → (i : Nat) → σ → Out σ
  | 0, _, _ => .fuel
  | fuel + 1, i, s => if i > from_ then body i s >>= foreachR body from_ fuel (wsub i 1) else .ok s

/-- `VT_FOREACH_STEP(iter, from, to, step)`, core.h:71; the step is a `size_t`. -/
def foreachStep (body : Nat → σ → Out σ) (to step : Nat) : (fuel : Nat) → (i : Nat) → σ → Out σ
  | 0, _, _ => .fuel
  | fuel + 1, i, s => if i < to then body i s >>= foreachStep body to step fuel (wadd i step) else .ok s

end Vita.Foreach
