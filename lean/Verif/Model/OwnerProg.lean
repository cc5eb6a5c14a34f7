import Verif.Model.OwnerLib
import Verif.Model.OwnerMem
/-!
# Programs that decide by what they read, in one memory

The programs of `Model/OwnerLib.lean`, which may look at a container between two commands and choose what to do next, and with which arguments, by what they
found there (`vt_str_append(a, vt_str_z(b))`, a loop up to `vt_vec_len(v)`, or the library functions that are made of calls on containers), on the memory of
`Model/OwnerMem.lean`.  They look at the length, the capacity and the bytes, not at addresses.  A pointer to a string that is an element of a list is the
number of the string, as in `Model/OwnerLib.lean`, not its address.  (A program is a tree without infinite branches; of a program that runs for ever, each
finite part is such a tree.)
-/

namespace Vita.Own
open Mal

/-- The code on the memory: to look at a container is to follow the pointer to the header and the pointer in it to the buffer. -/
def Prog.inMem (E : Env) (A : Allocator) : Prog α → Machine → Out (Machine × α)
  | .out o, M => do
    let a ← o
    .ok (M, a)
  | .cmd c k, M => do
    let M ← stepM E A M c
    k.inMem E A M
  | .look i k, M => do
    let o ← M.load i
    (k (o.kind, o.arr)).inMem E A M
  | .next k, M => (k M.ptrs.length).inMem E A M

end Vita.Own
