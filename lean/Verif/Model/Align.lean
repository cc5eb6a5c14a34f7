import Verif.Model.SpanTyped
import Verif.Model.Plist
/-!
# The addresses of elements

The other models name a place in a buffer by its offset.  Here the buffer begins at the address `base`, and an access `*(T*)p` to an object of a type `T`
with an alignment is undefined when `p` is not a multiple of the alignment (C11 6.3.2.3 §7).  On x86-64 the alignment of each of the types of the typed
functions (`int8_t` … `uint64_t`, `float`, `double`, `long double`) is its size `w`.  Copies by `memcpy` are not restricted.
-/

namespace Vita
namespace Align

/-- `*(T*)(base + off)` for a type of `w` bytes that is aligned to `w`. -/
def load (base : Nat) (m : Mem) (off w : Nat) : Out (List Byte) :=
  if wadd base off % w = 0 then readN m off w else .ub

/-- The pointer returned by `vt_vec_get`, vec.c:269-283, and `vt_array_get`, common.c:75-88. -/
def vecGet (E : Env) (base : Nat) (v : Arr) (at_ : Nat) : Out Nat := do
  dassert E (at_ < v.len)
  dassert E (at_ < v.len)
  .ok (wadd base (wmul at_ v.elsize))

/-- The pointer returned by `vt_vec_pop_get`, vec.c:205-216; NULL is `none`. -/
def vecPopGet (base : Nat) (v : Arr) : Option Nat :=
  if v.len > 0 then some (wadd base (wmul (wsub v.len 1) v.elsize)) else none

/-- The pointer returned by `vt_array_slide_front`, common.c:107-122; NULL is `none`. -/
def slideFront (base : Nat) (v : Arr) : Option Nat :=
  if v.slider < v.len then some (wadd base (wmul (wsub (wadd v.slider 1) 1) v.elsize)) else none

/-- The pointer returned by `vt_span_get`, span.c:34-44; the span's own pointer is `base + s.off`. -/
def spanGet (E : Env) (base : Nat) (s : Span) (at_ : Nat) : Out Nat := do
  dassert E (at_ < s.len)
  dassert E (at_ < s.len)
  .ok (wadd base (s.off + wmul at_ s.elsize))

/-- `vt_vec_get##t`, vec.c:285-288, with the alignment checked. -/
def vecGetT (E : Env) (base : Nat) (v : Arr) (w : Nat) (at_ : Nat) : Out (BitVec (8 * w)) := do
  dassert E (at_ < v.len)
  dassert E (at_ < v.len)
  let bs ← load base v.mem (wmul at_ v.elsize) w
  let x ← Vec.leValue bs
  .ok (BitVec.ofNat (8 * w) x)

/-- `vt_vec_pop_get##t`, vec.c:218-222, with the alignment checked. -/
def vecPopGetT (base : Nat) (v : Arr) (w : Nat) : Out (Arr × BitVec (8 * w)) :=
  if v.len > 0 then do
    let l := wsub v.len 1
    let bs ← load base v.mem (wmul l v.elsize) w
    let x ← Vec.leValue bs
    .ok ({ v with len := l }, BitVec.ofNat (8 * w) x)
  else .ok (v, 0)

/-- `vt_span_get##t`, span.c:46-61, with the alignment checked. -/
def spanGetT (E : Env) (base : Nat) (m : Mem) (s : Span) (w : Nat) (at_ : Nat) : Out (BitVec (8 * w)) := do
  dassert E (at_ < s.len)
  dassert E (at_ < s.len)
  let bs ← load base m (s.off + wmul at_ s.elsize) w
  let x ← Vec.leValue bs
  .ok (BitVec.ofNat (8 * w) x)

/-- `p->ptr2[i]` as in plist.c:191, 238, 288, 304, 321, 347, with the alignment checked. -/
def loadPtr (base : Nat) (m : Mem) (i : Nat) : Out Ptr := do
  let bs ← load base m (i * 8) 8
  let x ← Vec.leValue bs
  .ok (BitVec.ofNat 64 x)

/-- `p->ptr2[i] = q` as in plist.c:147, 176, 217, with the alignment checked. -/
def storePtr (base : Nat) (m : Mem) (i : Nat) (q : Ptr) : Out Mem :=
  if wadd base (i * 8) % 8 = 0 then Vita.storePtr m i q else .ub

end Align
end Vita
