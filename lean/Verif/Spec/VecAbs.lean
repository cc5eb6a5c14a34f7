import Verif.Model.Vec
import Verif.Lemmas.Chunks
import Verif.Spec.Seq
/-!
# What an observer sees of a vector
-/

namespace Vita

/-- The elements of a vector: the first `len` groups of `elsize` bytes of its buffer. -/
def Arr.elems (v : Arr) : List (List Byte) := chunks v.elsize v.len v.mem

/-- The observable state: elements and capacity. -/
def Arr.abs (v : Arr) : Spec.SeqState (List Byte) := ⟨v.elems, v.cap⟩

/-- Well-formed vector: length at most capacity, the buffer holds exactly `cap * elsize` bytes, at
least one slot of at least one byte, and the buffer was granted by the allocator (less than 2^56
bytes). -/
structure Arr.WF (v : Arr) : Prop where
  le : v.len ≤ v.cap
  mem : v.mem.length = v.cap * v.elsize
  es : 0 < v.elsize
  cap : 0 < v.cap
  lim : v.cap * v.elsize < 2 ^ 56

instance (v : Arr) : Decidable v.WF :=
  decidable_of_iff (v.len ≤ v.cap ∧ v.mem.length = v.cap * v.elsize ∧ 0 < v.elsize ∧ 0 < v.cap ∧
      v.cap * v.elsize < 2 ^ 56)
    ⟨fun ⟨a, b, c, d, e⟩ => ⟨a, b, c, d, e⟩, fun ⟨a, b, c, d, e⟩ => ⟨a, b, c, d, e⟩⟩

/-- One call of the vector interface.  The pointer arguments are the memory they point to. -/
inductive VecCall
  | pushBack (val : Mem)
  | pushFront (val : Mem)
  | insert (val : Mem) (i : Nat)
  | set (val : Mem) (i : Nat)
  | removeStable (i : Nat)
  | removeFast (i : Nat)
  | pop
  | clear
  | reserve (n : Nat)
  | resize (n : Nat)
  | shrink

/-- Run one call of the model. -/
def VecCall.run (E : Env) (v : Arr) : VecCall → Out Arr
  | .pushBack val => Vec.pushBack E v val
  | .pushFront val => Vec.pushFront E v val
  | .insert val i => Vec.insert E v val i
  | .set val i => Vec.set E v val i
  | .removeStable i => Vec.remove E v i .stable
  | .removeFast i => Vec.remove E v i .fast
  | .pop => .ok (Vec.pop v)
  | .clear => .ok (Vec.clear v)
  | .reserve n => Vec.reserve E v n
  | .resize n => Vec.resize E v n
  | .shrink => Vec.shrink E v

/-- Run a history of calls; it stops at the first call that does not return. -/
def runVec (E : Env) : Arr → List VecCall → Out Arr
  | v, [] => .ok v
  | v, c :: cs => c.run E v >>= fun v' => runVec E v' cs

/-- The abstract operation a call stands for: a value argument counts with its first `es` bytes. -/
def VecCall.toOp (es : Nat) : VecCall → Spec.SeqOp (List Byte)
  | .pushBack val => .pushBack (val.take es)
  | .pushFront val => .pushFront (val.take es)
  | .insert val i => .insert (val.take es) i
  | .set val i => .set (val.take es) i
  | .removeStable i => .removeStable i
  | .removeFast i => .removeFast i
  | .pop => .pop
  | .clear => .clear
  | .reserve n => .reserve n
  | .resize n => .resize n
  | .shrink => .shrink

/-- Precondition of a call that C cannot check: a value argument points to at least `es` readable bytes, and
the byte counts implied by `reserve` and `resize` do not overflow (`n * es` stays below 2^63). -/
def VecCall.Fits (es : Nat) : VecCall → Prop
  | .pushBack val | .pushFront val | .insert val _ | .set val _ => es ≤ val.length
  | .reserve n | .resize n => n * es < 2 ^ 63
  | _ => True

end Vita
