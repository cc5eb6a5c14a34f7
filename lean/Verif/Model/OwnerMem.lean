import Verif.Model.Owner
/-!
# Containers in one memory

In `Model/Owner.lean` each container carries its contents with it.  Here the contents are where they are in C: in the blocks of the heap.  A program holds
only pointers to headers (`struct VitaBaseArrayType`, common.h:27-45); a call follows the pointer to the header and the header's `ptr` to the buffer, and
writes to the blocks it finds there.  A pointer keeps its value when the container is destroyed.

What a call writes into its buffer before it returns, and what it writes into temporary blocks, is not followed in detail: the buffer gets its final contents
at its final address.
-/

namespace Vita.Own
open Mal

/-- What a block holds: the fields of a header, or bytes. -/
inductive Cell
  | header (kind : Kind) (tracked : Bool) (buf len cap elsize slider : Nat) (isView : Bool)
  | bytes (m : Mem)

/-- What the blocks hold, by address; `none` where there is no block. -/
abbrev Store := Nat → Option Cell

/-- The store with another cell at `p`. -/
def Store.put (σ : Store) (p : Nat) (c : Option Cell) : Store := fun q => if q = p then c else σ q

/-- The state of a program: memory, what it holds, and the pointers to the containers in the order of their creation. -/
structure Machine where
  sys : Sys
  store : Store
  ptrs : List Nat

/-- The header of a container. -/
def headerOf (o : Obj) : Cell := .header o.kind o.tracked o.buf o.arr.len o.arr.cap o.arr.elsize o.arr.slider o.arr.isView

/-- The container a pointer points to: the header, and the buffer its member `ptr` points to. -/
def load (σ : Store) (p : Nat) : Out Obj :=
  match σ p with
  | some (.header kind tracked buf len cap elsize slider isView) =>
    match σ buf with
    | some (.bytes m) => .ok ⟨kind, p, buf, tracked, ⟨len, cap, elsize, slider, isView, m⟩⟩
    | _ => .ub
  | _ => .ub

/-- Writing header and buffer of a container. -/
def save (σ : Store) (o : Obj) : Store := (σ.put o.buf (some (.bytes o.arr.mem))).put o.hdr (some (headerOf o))

/-- `alloc`: the new block holds zeros (`vt_calloc`, core.c:25-36). -/
def allocM (E : Env) (A : Allocator) (M : Sys × Store) (tracked : Bool) (n : Nat) : Out ((Sys × Store) × Nat) := do
  let (S, p) ← alloc E A M.1 tracked n
  .ok ((S, M.2.put p (some (.bytes (List.replicate n (some 0))))), p)

/-- `realloc`: what the block held goes to the new address (`vt_realloc`, core.c:38-49). -/
def reallocM (E : Env) (A : Allocator) (M : Sys × Store) (tracked : Bool) (p n : Nat) : Out ((Sys × Store) × Nat) := do
  let (S, q) ← realloc E A M.1 tracked p n
  .ok ((S, (M.2.put p none).put q (M.2 p)), q)

/-- `free`: there is nothing at the address any more (`vt_free`, core.c:51-57). -/
def freeM (E : Env) (M : Sys × Store) (tracked : Bool) (p : Nat) : Out (Sys × Store) := do
  let S ← free E M.1 tracked p
  .ok (S, M.2.put p none)

/-- `reallocs` with the store. -/
def reallocsM (E : Env) (A : Allocator) (tracked : Bool) : Sys × Store → Nat → List Nat → Out ((Sys × Store) × Nat)
  | M, p, [] => .ok (M, p)
  | M, p, n :: ns => do
    let (M, p) ← reallocM E A M tracked p n
    reallocsM E A tracked M p ns

/-- `perform` with the store. -/
def performM (E : Env) (A : Allocator) (tracked : Bool) : Sys × Store → Nat → List Req → Out ((Sys × Store) × Nat)
  | M, p, [] => .ok (M, p)
  | M, p, .own n :: rs => do
    let (M, p) ← reallocM E A M tracked p n
    performM E A tracked M p rs
  | M, p, .tmp n :: rs => do
    let (M, t) ← allocM E A M false n
    let M ← freeM E M false t
    performM E A tracked M p rs
  | M, p, .tmpStr n k inner :: rs => do
    let (M, h) ← allocM E A M tracked arrStructSize
    let (M, b) ← allocM E A M tracked n
    let (M, b) ← reallocM E A M tracked b k
    let (M, p) ← reallocsM E A tracked M p inner
    let M ← freeM E M tracked b
    let M ← freeM E M tracked h
    performM E A tracked M p rs

/-- Creation, as `new`: two new blocks, which get their contents. -/
def newM (E : Env) (A : Allocator) (M : Machine) (tracked : Bool) (kind : Kind) (bytes : Nat) (arr : Arr) : Out Machine := do
  let (N, h) ← allocM E A (M.sys, M.store) tracked arrStructSize
  let (N, b) ← allocM E A N tracked bytes
  .ok ⟨N.1, save N.2 ⟨kind, h, b, tracked, arr⟩, M.ptrs ++ [h]⟩

/-- The pointer with number `i`. -/
def Machine.ptr (M : Machine) (i : Nat) : Out Nat :=
  match M.ptrs[i]? with
  | some p => .ok p
  | none => .ub

/-- The container with number `i`, found through its pointer. -/
def Machine.load (M : Machine) (i : Nat) : Out Obj := do
  let p ← M.ptr i
  Own.load M.store p

/-- One command, as `step`. -/
def stepM (E : Env) (A : Allocator) (M : Machine) : Cmd → Out Machine
  | .make tr m => do
    let arr ← m.run E
    newM E A M tr m.kind m.bytes arr
  | .makeLike i m => do
    let l ← M.load i
    let arr ← m.run E
    newM E A M l.tracked m.kind m.bytes arr
  | .call i c => do
    let o ← M.load i
    if c.kind ≠ o.kind then .ub else do
      let arr ← c.run E o.arr
      let (N, p) ← performM E A o.tracked (M.sys, M.store) o.buf (c.reqs E o.arr)
      .ok ⟨N.1, save N.2 { o with buf := p, arr := arr }, M.ptrs⟩
  | .dup i tr => do
    let o ← M.load i
    let arr ← (dupOf E o).1
    newM E A M (if o.kind = .str then o.tracked else tr) o.kind (dupOf E o).2 arr
  | .destroy i => do
    let o ← M.load i
    if o.kind = .str ∧ o.arr.isView = true then .ok M else do
      let N ← freeM E (M.sys, M.store) o.tracked o.buf
      let N ← freeM E N o.tracked o.hdr
      .ok ⟨N.1, N.2, M.ptrs⟩

/-- A program: one command after the other. -/
def runM (E : Env) (A : Allocator) : Machine → List Cmd → Out Machine
  | M, [] => .ok M
  | M, c :: cs => do
    let M ← stepM E A M c
    runM E A M cs

end Vita.Own
