import Verif.Base.Mem
/-!
# Model of src/vita/container/{common,vec}.c
-/

namespace Vita

/-- `struct VitaBaseArrayType`, inc/vita/container/common.h:27-45.  The data pointer is replaced by
the block it points to; the allocator field is dropped (allocation goes to one primitive). -/
structure Arr where
  len : Nat
  cap : Nat
  elsize : Nat
  slider : Nat
  isView : Bool
  mem : Mem
  deriving Repr, DecidableEq

/-- `sizeof(struct VitaBaseArrayType)` on LP64: 4*8 + 8 (bool, padded) + 8 + 8. -/
def arrStructSize : Nat := 56

/-- inc/vita/core/core.h:53 `VT_ARRAY_DEFAULT_GROWTH_RATE`. -/
def growthRate : Nat := 2

/-- Removal strategies, inc/vita/core/core.h:110-114.  Values outside the enumeration are
rejected by an assertion (vec.c:351), and act as `fast` in release builds: see `Model/RemoveCode.lean`. -/
inductive Strategy
  | stable
  | fast
  deriving DecidableEq, Repr

/-- `vt_array_has_space`, common.c:52-58 (`size_t` subtraction, wraps). -/
def hasSpace (v : Arr) : Nat := wsub v.cap v.len

/-- `vt_gswap(m+a, m+b, n)`, core.c:116-131, both areas inside one block: three `memcpy`s through a
temporary.  `a = b` makes line 126 a `memcpy` onto itself (see `Env.isoMemcpy`); partially
overlapping areas make it undefined. -/
def gswap (E : Env) (m : Mem) (a b n : Nat) : Out Mem := do
  cassert E (n != 0)
  let _ ← vtCalloc E n
  let temp ← readN m a n
  let bb ← readN m b n
  if a = b then
    if E.isoMemcpy then .ub else
      let m1 ← writeN m a bb
      writeN m1 b temp
  else if a < b + n ∧ b < a + n then .ub
  else
    let m1 ← writeN m a bb
    writeN m1 b temp

namespace Vec

/-- `vt_vec_create`, vec.c:3-19. -/
def create (E : Env) (n elsize : Nat) : Out Arr := do
  dassert E (n > 0)
  dassert E (elsize > 0)
  let _ ← vtCalloc E arrStructSize
  let m ← vtCalloc E (wmul n elsize)
  .ok { len := 0, cap := n, elsize := elsize, slider := 0, isView := false, mem := m }

/-- `vt_vec_dup`, vec.c:40-53. -/
def dup (E : Env) (v : Arr) : Out Arr := do
  let d ← create E v.len v.elsize
  let n := wmul v.len v.elsize
  let bs ← readN v.mem 0 n
  let m ← writeN d.mem 0 bs
  .ok { d with len := v.len, mem := m }

/-- `vt_vec_len`, vec.c:55-57. -/
def length (v : Arr) : Nat := v.len

/-- `vt_vec_is_empty`, vec.c:67-69. -/
def isEmpty (v : Arr) : Bool := v.len == 0

/-- `vt_vec_shrink`, vec.c:71-88. -/
def shrink (E : Env) (v : Arr) : Out Arr :=
  if v.len = v.cap then .ok v else do
    let m ← vtRealloc E v.mem (wmul v.len v.elsize)
    .ok { v with mem := m, cap := v.len }

/-- `vt_vec_clear`, vec.c:90-97. -/
def clear (v : Arr) : Arr := { v with len := 0 }

/-- `vt_vec_reserve`, vec.c:99-112. -/
def reserve (E : Env) (v : Arr) (n : Nat) : Out Arr := do
  dassert E (n > 0)
  let m ← vtRealloc E v.mem (wmul (wadd v.cap n) v.elsize)
  .ok { v with mem := m, cap := wadd v.cap n }

/-- `vt_vec_resize`, vec.c:114-132. -/
def resize (E : Env) (v : Arr) (n : Nat) : Out Arr := do
  dassert E (n > 0)
  if n = v.cap then .ok { v with len := v.cap }
  else
    let m ← vtRealloc E v.mem (wmul n v.elsize)
    .ok { v with mem := m, len := n, cap := n }

/-- The growth step shared by `vt_vec_push_back` (vec.c:168-171) and `vt_vec_insert`
(vec.c:315-318). -/
def grow (E : Env) (v : Arr) : Out Arr :=
  if hasSpace v = 0 then reserve E v (wmul v.cap growthRate) else .ok v

/-- `vt_vec_push_back`, vec.c:162-175.  `val` is the memory at the pointer argument. -/
def pushBack (E : Env) (v : Arr) (val : Mem) : Out Arr := do
  let v ← grow E v
  let m ← memcpyIn v.mem (wmul v.len v.elsize) val v.elsize
  .ok { v with mem := m, len := wadd v.len 1 }

/-- `vt_vec_insert`, vec.c:302-328. -/
def insert (E : Env) (v : Arr) (val : Mem) (at_ : Nat) : Out Arr := do
  dassert E (at_ < v.len)
  let v ← grow E v
  let m ← vtMemmove v.mem (wmul (wadd at_ 1) v.elsize) (wmul at_ v.elsize)
            (wmul (wsub v.len at_) v.elsize)
  let m ← memcpyIn m (wmul at_ v.elsize) val v.elsize
  .ok { v with mem := m, len := wadd v.len 1 }

/-- `vt_vec_push_front`, vec.c:134-143. -/
def pushFront (E : Env) (v : Arr) (val : Mem) : Out Arr :=
  if v.len ≠ 0 then insert E v val 0 else pushBack E v val

/-- `vt_vec_pop`, vec.c:194-203. -/
def pop (v : Arr) : Arr := if v.len > 0 then { v with len := wsub v.len 1 } else v

/-- `vt_vec_pop_get`, vec.c:205-216: the new state and the bytes at the returned pointer
(`none` for NULL).  Reading the element through the pointer is part of the model. -/
def popGet (v : Arr) : Out (Arr × Option (List Byte)) :=
  if v.len > 0 then do
    let l := wsub v.len 1
    let bs ← readN v.mem (wmul l v.elsize) v.elsize
    .ok ({ v with len := l }, some bs)
  else .ok (v, none)

/-- `vt_array_get`, common.c:75-88, dereferenced: the `elsize` bytes at the returned pointer. -/
def arrGet (E : Env) (v : Arr) (at_ : Nat) : Out (List Byte) := do
  dassert E (at_ < v.len)
  readN v.mem (wmul at_ v.elsize) v.elsize

/-- `vt_array_set`, common.c:90-105. -/
def arrSet (E : Env) (v : Arr) (val : Mem) (at_ : Nat) : Out Arr := do
  dassert E (at_ < v.len)
  let m ← memcpyIn v.mem (wmul at_ v.elsize) val v.elsize
  .ok { v with mem := m }

/-- `vt_vec_get`, vec.c:270-283, dereferenced. -/
def get (E : Env) (v : Arr) (at_ : Nat) : Out (List Byte) := do
  dassert E (at_ < v.len)
  arrGet E v at_

/-- `vt_vec_set`, vec.c:236-251. -/
def set (E : Env) (v : Arr) (val : Mem) (at_ : Nat) : Out Arr := do
  dassert E (at_ < v.len)
  arrSet E v val at_

/-- The data movement of `vt_vec_remove`, vec.c:360-365. -/
def removeMem (E : Env) (v : Arr) (at_ : Nat) : Strategy → Out Mem
  | .stable => vtMemmove v.mem (wmul at_ v.elsize) (wmul (wadd at_ 1) v.elsize)
                  (wmul (wsub (wsub v.len at_) 1) v.elsize)
  | .fast => gswap E v.mem (wmul at_ v.elsize) (wmul (wsub v.len 1) v.elsize) v.elsize

/-- `vt_vec_remove`, vec.c:347-369. -/
def remove (E : Env) (v : Arr) (at_ : Nat) (rs : Strategy) : Out Arr := do
  dassert E (at_ < v.len)
  let m ← removeMem E v at_ rs
  .ok { v with mem := m, len := wsub v.len 1 }

/-- The loop of `vt_vec_can_find`, vec.c:377-382: `iter` runs from the head of the buffer to
`head + len*elsize`, comparing with `memcmp`.  `k` is the number of elements left, `i` the index. -/
def canFindLoop (v : Arr) (val : List Byte) : Nat → Nat → Out Int
  | 0, _ => .ok (-1)
  | k + 1, i => do
      let x ← readN v.mem (wmul i v.elsize) v.elsize
      let e ← bytesEq x val
      if e then .ok (i : Int) else canFindLoop v val k (i + 1)

/-- `vt_vec_can_find`, vec.c:371-385.  The loop runs over `len` elements (the C loop compares
addresses; with `elsize >= 1` both stop at the same element).  The `int64_t` result is an integer. -/
def canFind (v : Arr) (val : Mem) : Out Int := do
  if v.len = 0 then .ok (-1) else
    let x ← readN val 0 v.elsize
    canFindLoop v x v.len 0

/-- The loop of `vt_vec_apply`, vec.c:435-438, over the `k` elements from number `i`.  The callback is
`f`: it has a state of its own (whatever it reads and writes elsewhere), is given the bytes of the
element and its index, and may rewrite the element through the pointer it receives.  A callback that
reads or writes other bytes of the vector, or calls functions on the vector, is modelled in `Model/ApplyAny.lean`. -/
def applyLoop (f : σ → List Byte → Nat → σ × List Byte) (es : Nat) :
    (k : Nat) → Mem → (i : Nat) → σ → Out (Mem × σ)
  | 0, m, _, st => .ok (m, st)
  | k + 1, m, i, st => do
    let x ← readN m (wmul i es) es
    let m ← writeN m (wmul i es) (f st x i).2
    applyLoop f es k m (i + 1) (f st x i).1

/-- `vt_vec_apply`, vec.c:429-439. -/
def apply (f : σ → List Byte → Nat → σ × List Byte) (v : Arr) (st : σ) : Out (Arr × σ) := do
  let r ← applyLoop f v.elsize v.len v.mem 0 st
  .ok ({ v with mem := r.1 }, r.2)

/-! ### Typed accessors (the `VT_INSTANTIATE_*` macros of vec.c)

A fixed-width integer of `w` bytes is its bit pattern `BitVec (8*w)`; signed types are the same
patterns read in two's complement. -/

/-- Object representation of a `w`-byte integer, little endian. -/
def leBytes : (w : Nat) → Nat → List Byte
  | 0, _ => []
  | w + 1, x => some (UInt8.ofNat x) :: leBytes w (x / 256)

/-- Value of little-endian bytes; an indeterminate byte makes it undefined. -/
def leValue : List Byte → Out Nat
  | [] => .ok 0
  | none :: _ => .ub
  | some b :: t => do
      let r ← leValue t
      .ok (b.toNat + 256 * r)

/-- `vt_vec_push_back##t`, vec.c:177-180: the argument is a local object of exactly `w` bytes. -/
def pushBackT (E : Env) (v : Arr) (w : Nat) (x : BitVec (8 * w)) : Out Arr :=
  pushBack E v (leBytes w x.toNat)

/-- `vt_vec_push_front##t`, vec.c:145-148. -/
def pushFrontT (E : Env) (v : Arr) (w : Nat) (x : BitVec (8 * w)) : Out Arr :=
  pushFront E v (leBytes w x.toNat)

/-- `vt_vec_insert##t`, vec.c:330-333. -/
def insertT (E : Env) (v : Arr) (w : Nat) (x : BitVec (8 * w)) (at_ : Nat) : Out Arr :=
  insert E v (leBytes w x.toNat) at_

/-- `vt_vec_set##t`, vec.c:253-256. -/
def setT (E : Env) (v : Arr) (w : Nat) (x : BitVec (8 * w)) (at_ : Nat) : Out Arr :=
  set E v (leBytes w x.toNat) at_

/-- `vt_vec_get##t`, vec.c:285-288: reads `sizeof(T) = w` bytes at the element's address. -/
def getT (E : Env) (v : Arr) (w : Nat) (at_ : Nat) : Out (BitVec (8 * w)) := do
  dassert E (at_ < v.len)
  dassert E (at_ < v.len)
  let bs ← readN v.mem (wmul at_ v.elsize) w
  let x ← leValue bs
  .ok (BitVec.ofNat (8 * w) x)

/-- `vt_vec_pop_get##t`, vec.c:218-222: 0 for an empty vector. -/
def popGetT (v : Arr) (w : Nat) : Out (Arr × BitVec (8 * w)) :=
  if v.len > 0 then do
    let l := wsub v.len 1
    let bs ← readN v.mem (wmul l v.elsize) w
    let x ← leValue bs
    .ok ({ v with len := l }, BitVec.ofNat (8 * w) x)
  else .ok (v, 0)

end Vec

/-! ## Sliders (common.c) -/

namespace Slide

/-- `vt_array_slide_front`, common.c:107-122 (also `vt_vec_slide_front`, vec.c:404-410, and
`vt_str_slide_front`, str.c:1352-1358): new state and the bytes at the returned pointer (`none` for NULL). -/
def front (v : Arr) : Out (Arr × Option (List Byte)) :=
  if v.slider < v.len then do
    let s := wadd v.slider 1
    let bs ← readN v.mem (wmul (wsub s 1) v.elsize) v.elsize
    .ok ({ v with slider := s }, some bs)
  else .ok ({ v with slider := 0 }, none)

/-- `vt_array_slide_back`, common.c:124-139 (also `vt_vec_slide_back`, vec.c:412-418, and `vt_str_slide_back`, str.c:1360-1366): note the index `len - slider - 2` with the already
incremented slider, line 132.  Forming or reading a pointer outside the buffer is undefined. -/
def back (v : Arr) : Out (Arr × Option (List Byte)) :=
  if v.slider < v.len then do
    let s := wadd v.slider 1
    let bs ← readN v.mem (wmul (wsub (wsub v.len s) 2) v.elsize) v.elsize
    .ok ({ v with slider := s }, some bs)
  else .ok ({ v with slider := 0 }, none)

/-- `vt_array_slide_reset`, common.c:141-147 (also `vt_vec_slide_reset`, vec.c:420-426, `vt_str_slide_reset`, str.c:1368-1374, and
`vt_plist_slide_reset`, plist.c:330-336). -/
def reset (v : Arr) : Arr := { v with slider := 0 }

end Slide

end Vita
