import Verif.Base.CStr
import Verif.Model.Small
/-!
# `vt_malloc` and code that works on blocks

`vt_malloc` (src/vita/core/core.c:12-23) is not used by the library itself; programs use it through the macro `VT_MALLOC` (inc/vita/core/core.h).  Such a program
is a tree of calls of the memory functions of core.c that may branch on every byte it reads.
-/

namespace Vita
namespace Malloc

/-- `vt_malloc`, core.c:12-23: a block whose bytes are indeterminate.  `malloc(0)`, possible in release builds only, gives a block without bytes, as in glibc. -/
def vtMalloc (E : Env) (n : Nat) : Out Mem := do
  cassert E (n > 0)
  if E.allocOk n then .ok (List.replicate n none) else .exit .alloc

/-- `vt_malloc`, core.c:12-23, again, for an implementation whose `malloc` leaves the bytes `fill i o` in the block with number `i`: what programs meet in practice. -/
def vtMallocWith (E : Env) (fill : Nat → Nat → UInt8) (i n : Nat) : Out Mem := do
  cassert E (n > 0)
  if E.allocOk n then .ok ((List.range n).map fun o => some (fill i o)) else .exit .alloc

/-- The blocks of a program, in the order of their allocation; `none` after `vt_free`. -/
abbrev Blocks := List (Option Mem)

/-- The block with number `i`; using a block that has been freed or never existed is undefined. -/
def block (H : Blocks) (i : Nat) : Out Mem :=
  match H[i]? with
  | some (some m) => .ok m
  | _ => .ub

/-- A program on blocks.  `make` allocates, `grow` is `vt_realloc` (core.c:38-49; the block keeps its number), `free` is `vt_free` (51-57), `move` is
`vt_memmove` in one block (59-72), `copy` is `vt_memcopy` from one block to another (74-87), `fill` is `vt_memset` (89-101), `same` is `vt_memcmp` (103-112);
`get` and `put` read and write a byte. -/
inductive Code (α : Type) : Type
  | done (a : α)
  | make (n : Nat) (k : Nat → Code α)
  | grow (i n : Nat) (k : Code α)
  | free (i : Nat) (k : Code α)
  | get (i o : Nat) (k : UInt8 → Code α)
  | put (i o : Nat) (b : UInt8) (k : Code α)
  | fill (i o : Nat) (b : UInt8) (n : Nat) (k : Code α)
  | move (i d s n : Nat) (k : Code α)
  | copy (i d j n : Nat) (k : Code α)
  | same (i j n : Nat) (k : Bool → Code α)

/-- Executes a program; `alloc` is the function by which it allocates; what it returns may depend on the number of the block, because no two
blocks need to have the same contents.  Copying a block onto itself is undefined (`memcpy`, core.c:84). -/
def exec {α : Type} (E : Env) (alloc : Nat → Nat → Out Mem) : Code α → Blocks → Out (α × Blocks)
  | .done a, H => .ok (a, H)
  | .make n k, H => do
    let m ← alloc H.length n
    exec E alloc (k H.length) (H ++ [some m])
  | .grow i n k, H => do
    let m ← block H i
    let m ← vtRealloc E m n
    exec E alloc k (H.set i (some m))
  | .free i k, H => do
    let _ ← block H i
    exec E alloc k (H.set i none)
  | .get i o k, H => do
    let m ← block H i
    let b ← getc m o
    exec E alloc (k b) H
  | .put i o b k, H => do
    let m ← block H i
    let m ← putc m o b
    exec E alloc k (H.set i (some m))
  | .fill i o b n k, H => do
    let m ← block H i
    let m ← vtMemset m o b n
    exec E alloc k (H.set i (some m))
  | .move i d s n k, H => do
    let m ← block H i
    let m ← vtMemmove m d s n
    exec E alloc k (H.set i (some m))
  | .copy i d j n k, H => do
    let m ← block H i
    let s ← block H j
    let m ← (if i = j ∧ n ≠ 0 then .ub else vtMemcpyIn m d s n)
    exec E alloc k (H.set i (some m))
  | .same i j n k, H => do
    let l ← block H i
    let r ← block H j
    let b ← Core.memcmp l r n
    exec E alloc (k b) H

end Malloc
end Vita
