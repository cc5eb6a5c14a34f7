import Verif.Model.Vec
/-!
# Model of src/vita/container/plist.c

A pointer list is a `struct VitaBaseArrayType` whose buffer holds 8-byte pointers (LP64), i.e. an
`Arr` with `elsize = 8`.  A pointer is its 64-bit pattern, stored little endian; NULL is 0.
-/

namespace Vita

/-- A pointer value (LP64). -/
abbrev Ptr := BitVec 64

/-- Object representation of a pointer. -/
def ptrBytes (q : Ptr) : List Byte := Vec.leBytes 8 q.toNat

/-- Load `((void**)m)[i]`.  The subscript is not reduced modulo 2^64: where the pointer leaves the block, the access is undefined. -/
def loadPtr (m : Mem) (i : Nat) : Out Ptr := do
  let bs ← readN m (i * 8) 8
  let x ← Vec.leValue bs
  .ok (BitVec.ofNat 64 x)

/-- Store `((void**)m)[i] = q`. -/
def storePtr (m : Mem) (i : Nat) (q : Ptr) : Out Mem := writeN m (i * 8) (ptrBytes q)

/-- `vt_pswap(&m[a], &m[b])`, core.c:133-141.  The pointers are exchanged as 8-byte groups (so that an
indeterminate pointer is moved, not inspected). -/
def pswap (m : Mem) (a b : Nat) : Out Mem := do
  let temp ← readN m (a * 8) 8
  let bb ← readN m (b * 8) 8
  let m1 ← writeN m (a * 8) bb
  writeN m1 (b * 8) temp

namespace Plist

/-- `vt_plist_create`, plist.c:3-18. -/
def create (E : Env) (n : Nat) : Out Arr := do
  dassert E (n > 0)
  let _ ← vtCalloc E arrStructSize
  let m ← vtCalloc E (wmul n 8)
  .ok { len := 0, cap := n, elsize := 8, slider := 0, isView := false, mem := m }

/-- `vt_plist_dup`, plist.c:39-52. -/
def dup (E : Env) (p : Arr) : Out Arr := do
  let d ← create E p.len
  let bs ← readN p.mem 0 (wmul p.len p.elsize)
  let m ← writeN d.mem 0 bs
  .ok { d with len := p.len, mem := m }

/-- `vt_plist_len`, plist.c:54-56. -/
def length (p : Arr) : Nat := p.len

/-- `vt_plist_reserve`, plist.c:70-83. -/
def reserve (E : Env) (p : Arr) (n : Nat) : Out Arr := do
  dassert E (n > 0)
  let m ← vtRealloc E p.mem (wmul (wadd p.cap n) p.elsize)
  .ok { p with mem := m, cap := wadd p.cap n }

/-- `vt_plist_shrink`, plist.c:85-103. -/
def shrink (E : Env) (p : Arr) : Out Arr :=
  if p.len = p.cap then .ok p else do
    let m ← vtRealloc E p.mem (wmul p.len p.elsize)
    .ok { p with mem := m, cap := p.len }

/-- `vt_plist_resize`, plist.c:105-123. -/
def resize (E : Env) (p : Arr) (n : Nat) : Out Arr := do
  dassert E (n > 0)
  if n = p.cap then .ok { p with len := p.cap }
  else
    let m ← vtRealloc E p.mem (wmul n p.elsize)
    .ok { p with mem := m, len := n, cap := n }

/-- Growth step of plist.c:137-140 and 211-214. -/
def grow (E : Env) (p : Arr) : Out Arr :=
  if hasSpace p = 0 then reserve E p (wmul p.cap growthRate) else .ok p

/-- `vt_plist_insert`, plist.c:125-151. -/
def insert (E : Env) (p : Arr) (q : Ptr) (at_ : Nat) : Out Arr := do
  dassert E (q != 0)
  dassert E (at_ < p.len)
  let p ← grow E p
  let m ← vtMemmove p.mem (wmul (wadd at_ 1) p.elsize) (wmul at_ p.elsize)
            (wmul (wsub p.len at_) p.elsize)
  let m ← storePtr m at_ q
  .ok { p with mem := m, len := wadd p.len 1 }

/-- `vt_plist_clear`, plist.c:153-160. -/
def clear (p : Arr) : Arr := { p with len := 0 }

/-- `vt_plist_set`, plist.c:162-177. -/
def set (E : Env) (p : Arr) (q : Ptr) (at_ : Nat) : Out Arr := do
  dassert E (q != 0)
  dassert E (at_ < p.len)
  let m ← storePtr p.mem at_ q
  .ok { p with mem := m }

/-- `vt_plist_get`, plist.c:179-192. -/
def get (E : Env) (p : Arr) (at_ : Nat) : Out Ptr := do
  dassert E (at_ < p.len)
  loadPtr p.mem at_

/-- `vt_plist_push_back`, plist.c:205-218. -/
def pushBack (E : Env) (p : Arr) (q : Ptr) : Out Arr := do
  dassert E (q != 0)
  let p ← grow E p
  let m ← storePtr p.mem p.len q
  .ok { p with mem := m, len := wadd p.len 1 }

/-- `vt_plist_push_front`, plist.c:194-203. -/
def pushFront (E : Env) (p : Arr) (q : Ptr) : Out Arr := do
  dassert E (q != 0)
  if p.len ≠ 0 then insert E p q 0 else pushBack E p q

/-- `vt_plist_pop`, plist.c:220-229. -/
def pop (p : Arr) : Arr := if p.len > 0 then { p with len := wsub p.len 1 } else p

/-- `vt_plist_pop_get`, plist.c:231-242. -/
def popGet (p : Arr) : Out (Arr × Ptr) :=
  if p.len > 0 then do
    let l := wsub p.len 1
    let q ← loadPtr p.mem l
    .ok ({ p with len := l }, q)
  else .ok (p, 0)

/-- The data movement of `vt_plist_remove`, plist.c:257-262. -/
def removeMem (p : Arr) (at_ : Nat) : Strategy → Out Mem
  | .stable => vtMemmove p.mem (at_ * 8) (wadd at_ 1 * 8)
                  (wmul (wsub (wsub p.len at_) 1) p.elsize)
  | .fast => pswap p.mem at_ (wsub p.len 1)

/-- `vt_plist_remove`, plist.c:244-266. -/
def remove (E : Env) (p : Arr) (at_ : Nat) (rs : Strategy) : Out Arr := do
  dassert E (at_ < p.len)
  let m ← removeMem p at_ rs
  .ok { p with mem := m, len := wsub p.len 1 }

/-- The loop of `vt_plist_can_find`, plist.c:287-291. -/
def canFindLoop (p : Arr) (q : Ptr) : Nat → Nat → Out Int
  | 0, _ => .ok (-1)
  | k + 1, i => do
      let x ← loadPtr p.mem i
      if x = q then .ok (i : Int) else canFindLoop p q k (i + 1)

/-- `vt_plist_can_find`, plist.c:280-294. -/
def canFind (E : Env) (p : Arr) (q : Ptr) : Out Int := do
  dassert E (q != 0)
  canFindLoop p q p.len 0

/-- `vt_plist_remove_element`, plist.c:268-278. -/
def removeElement (E : Env) (p : Arr) (q : Ptr) (rs : Strategy) : Out Arr := do
  dassert E (q != 0)
  let idx ← canFind E p q
  if idx ≥ 0 then remove E p idx.toNat rs else .ok p

/-- `vt_plist_slide_front`, plist.c:296-311. -/
def slideFront (p : Arr) : Out (Arr × Ptr) :=
  if p.slider < p.len then do
    let s := wadd p.slider 1
    let q ← loadPtr p.mem (wsub s 1)
    .ok ({ p with slider := s }, q)
  else .ok ({ p with slider := 0 }, 0)

/-- `vt_plist_slide_back`, plist.c:313-328. -/
def slideBack (p : Arr) : Out (Arr × Ptr) :=
  if p.slider < p.len then do
    let s := wadd p.slider 1
    let q ← loadPtr p.mem (wsub (wsub p.len s) 2)
    .ok ({ p with slider := s }, q)
  else .ok ({ p with slider := 0 }, 0)

/-- `vt_plist_apply`, plist.c:338-349: the (pointer, index) pairs passed to the callback. -/
def applyTrace (p : Arr) : Nat → Nat → Out (List (Ptr × Nat))
  | 0, _ => .ok []
  | k + 1, i => do
      let x ← loadPtr p.mem i
      let r ← applyTrace p k (i + 1)
      .ok ((x, i) :: r)

/-- `vt_plist_apply`, plist.c:338-349. -/
def apply (p : Arr) : Out (List (Ptr × Nat)) := applyTrace p p.len 0

end Plist

end Vita
