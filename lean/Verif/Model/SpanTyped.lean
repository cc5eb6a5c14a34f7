import Verif.Model.Small
/-!
# The typed accessors of src/vita/container/span.c
-/

namespace Vita.Span

/-- `vt_span_get##t`, span.c:46-61: `sizeof(T) = w` bytes at the address of the element. -/
def getT (E : Env) (m : Mem) (s : Span) (w : Nat) (at_ : Nat) : Out (BitVec (8 * w)) := do
  dassert E (at_ < s.len)
  dassert E (at_ < s.len)
  let bs ← readN m (s.off + wmul at_ s.elsize) w
  let x ← Vec.leValue bs
  .ok (BitVec.ofNat (8 * w) x)

/-- `vt_span_set##t`, span.c:77-92: the parameter is an object of `w` bytes. -/
def setT (E : Env) (m : Mem) (s : Span) (w : Nat) (x : BitVec (8 * w)) (at_ : Nat) : Out Mem := set E m s (Vec.leBytes w x.toNat) at_

end Vita.Span
