import Verif.Base.Outcome
/-!
# Model of src/vita/allocator/mallocator.c

The heap is the list of live blocks (address and size); the C library's choice of addresses is arbitrary.  The
contents of blocks are not modelled.
-/

namespace Vita
namespace Mal

/-- The live heap blocks of the whole program.  `tick` counts allocations, so that the library's choice of addresses may depend
on the history. -/
structure Heap where
  blocks : List (Nat × Nat)
  tick : Nat
  deriving DecidableEq, Repr

/-- The addresses in use. -/
def Heap.addrs (H : Heap) : List Nat := H.blocks.map (·.1)

/-- The C library's choice of addresses: any addresses not in use; `realloc` may also keep the block where it is. -/
structure Allocator where
  calloc : Heap → Nat → Nat
  realloc : Heap → Nat → Nat → Nat
  calloc_fresh : ∀ H n, calloc H n ≠ 0 ∧ calloc H n ∉ H.addrs
  realloc_fresh : ∀ H p n, realloc H p n ≠ 0 ∧ (realloc H p n = p ∨ realloc H p n ∉ H.addrs)

/-- `vt_calloc`, core.c:25-36. -/
def hCalloc (E : Env) (A : Allocator) (H : Heap) (n : Nat) : Out (Heap × Nat) := do
  cassert E (n > 0)
  if E.allocOk n then .ok (⟨(A.calloc H n, n) :: H.blocks, H.tick + 1⟩, A.calloc H n) else .exit .alloc

/-- `vt_realloc`, core.c:38-49.  For NULL it allocates; for anything else that is not a live block it is undefined. -/
def hRealloc (E : Env) (A : Allocator) (H : Heap) (p n : Nat) : Out (Heap × Nat) := do
  cassert E (n > 0)
  if p ≠ 0 ∧ p ∉ H.addrs then .ub
  else if n = 0 then .exit .alloc
  else if E.allocOk n then
    .ok (⟨(A.realloc H p n, n) :: H.blocks.filter (·.1 ≠ p), H.tick + 1⟩, A.realloc H p n)
  else .exit .alloc

/-- `vt_free`, core.c:51-57: nothing for NULL; not a live block (double free): undefined. -/
def hFree (H : Heap) (p : Nat) : Out Heap :=
  if p = 0 then .ok H
  else if p ∉ H.addrs then .ub
  else .ok ⟨H.blocks.filter (·.1 ≠ p), H.tick + 1⟩

/-- `struct VitaAllocatorStats`, mallocator.h:33-39. -/
structure Stats where
  allocs : Nat := 0
  reallocs : Nat := 0
  frees : Nat := 0
  bytesAllocated : Nat := 0
  bytesFreed : Nat := 0
  deriving DecidableEq, Repr

/-- `struct VitaBaseAllocatorType`, mallocator.h:48-61: its own address, the address of the object list, the entries in use
of the object list (`obj_list_len` is their number), capacity and statistics.  The function pointers always hold the three
functions below until `destroy`. -/
structure T where
  self : Nat
  table : Nat
  objs : List (Nat × Nat)
  cap : Nat
  stats : Stats
  deriving DecidableEq, Repr

/-- `sizeof(vt_mallocator_t)` on LP64. -/
def structSize : Nat := 88
/-- `sizeof(struct VitaAllocatedObject)` on LP64. -/
def objSize : Nat := 16
/-- `VT_ARRAY_DEFAULT_INIT_ELEMENTS`, core.h:52. -/
def initElems : Nat := 16

/-- `vt_mallocator_create`, mallocator.c:9-25. -/
def create (E : Env) (A : Allocator) (H : Heap) : Out (T × Heap) := do
  let (H, s) ← hCalloc E A H structSize
  let (H, t) ← hCalloc E A H (wmul objSize initElems)
  .ok (⟨s, t, [], initElems, {}⟩, H)

/-- `vt_mallocator_obj_list_has_space`, mallocator.c:245-251. -/
def hasSpace (m : T) : Bool := wsub m.cap m.objs.length != 0

/-- `vt_mallocator_obj_list_resize`, mallocator.c:230-239. -/
def resize (E : Env) (A : Allocator) (H : Heap) (m : T) (length : Nat) : Out (T × Heap) := do
  dassert E (length > 0)
  let (H, t) ← hRealloc E A H m.table (wmul length objSize)
  .ok ({ m with table := t, cap := length }, H)

/-- `vt_mallocator_obj_list_add`, mallocator.c:177-190; writing behind the end of the list is undefined. -/
def add (E : Env) (A : Allocator) (H : Heap) (m : T) (obj : Nat × Nat) : Out (T × Heap) := do
  let (m, H) ← if !hasSpace m then resize E A H m (wmul 2 m.cap) else .ok (m, H)
  if m.objs.length < m.cap then .ok ({ m with objs := m.objs ++ [obj] }, H) else .ub

/-- The loop of `vt_mallocator_obj_list_find`, mallocator.c:259-274, from position `i`. -/
def findLoop (objs : List (Nat × Nat)) (ptr i : Nat) : Option Nat :=
  match objs with
  | [] => none
  | o :: t => if o.1 = ptr then some i else findLoop t ptr (i + 1)

/-- `vt_mallocator_obj_list_remove`, mallocator.c:198-224: the size recorded, 0 if the pointer is not in the list. -/
def remove (m : T) (ptr : Nat) : Out (T × Nat) :=
  if m.objs.length > 0 then
    match findLoop m.objs ptr 0 with
    | none => .ok (m, 0)
    | some idx =>
      match m.objs[idx]?, m.objs[m.objs.length - 1]? with
      | some o, some last =>
        let objs := if idx ≠ m.objs.length - 1 then m.objs.set idx last else m.objs
        .ok ({ m with objs := objs.dropLast }, o.2)
      | _, _ => .ub
  else .ok (m, 0)

/-- `vt_mallocator_alloc`, mallocator.c:57-80. -/
def alloc (E : Env) (A : Allocator) (H : Heap) (m : T) (bytes : Nat) : Out (T × Heap × Nat) := do
  dassert E (bytes > 0)
  let (H, p) ← hCalloc E A H bytes
  let (m, H) ← add E A H m (p, bytes)
  let st := { m.stats with
    allocs := wadd m.stats.allocs 1
    bytesAllocated := wadd m.stats.bytesAllocated bytes }
  .ok ({ m with stats := st }, H, p)

/-- `vt_mallocator_realloc`, mallocator.c:82-111.  `bytes_diff` is the `size_t` difference converted to `int64_t`: negative
exactly if it is at least `2^63`; adding or subtracting it converts it back. -/
def realloc (E : Env) (A : Allocator) (H : Heap) (m : T) (ptr bytes : Nat) : Out (T × Heap × Nat) := do
  dassert E (ptr != 0)
  dassert E (bytes > 0)
  let (m, old) ← remove m ptr
  let (H, p) ← hRealloc E A H ptr bytes
  let (m, H) ← add E A H m (p, bytes)
  let diff := wsub bytes old
  let st := { m.stats with
    reallocs := wadd m.stats.reallocs 1
    bytesAllocated := wadd m.stats.bytesAllocated diff
    bytesFreed := wsub m.stats.bytesFreed (if diff ≥ 2 ^ 63 then diff else 0) }
  .ok ({ m with stats := st }, H, p)

/-- `vt_mallocator_free`, mallocator.c:113-137. -/
def free (E : Env) (H : Heap) (m : T) (ptr : Nat) : Out (T × Heap) := do
  dassert E (ptr != 0)
  let (m, bytes) ← remove m ptr
  let st := if bytes > 0 then { m.stats with
    frees := wadd m.stats.frees 1
    bytesFreed := wadd m.stats.bytesFreed bytes
    bytesAllocated := wsub m.stats.bytesAllocated bytes } else m.stats
  let H ← hFree H ptr
  .ok ({ m with stats := st }, H)

/-- The loop of `vt_mallocator_destroy`, mallocator.c:38-44. -/
def freeAll (H : Heap) : List (Nat × Nat) → Out Heap
  | [] => .ok H
  | o :: t => do
    let H ← hFree H o.1
    freeAll H t

/-- `vt_mallocator_destroy`, mallocator.c:27-55. -/
def destroy (H : Heap) (m : T) : Out Heap := do
  let H ← freeAll H m.objs
  let H ← hFree H m.table
  hFree H m.self

end Mal
end Vita
