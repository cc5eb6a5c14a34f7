import Verif.Model.Str
/-!
# Calls whose argument points into the container itself

The models of `vec.c` and `str.c` take argument bytes from another object.  Here the same functions
are written down for an argument that points into the block of the container, `off` bytes after its
start, as obtained from `vt_vec_get` or `vt_str_z`.  After a `realloc` (core.c:38-49) such a pointer is
invalid, whether or not the block was moved, so using it is `ub`.
-/

namespace Vita

/-- libc `memcpy(m + dst, m + src, n)` inside one block: overlapping areas are undefined; for a copy
onto itself see `Env.isoMemcpy`. -/
def memcpySelf (E : Env) (m : Mem) (dst src n : Nat) : Out Mem :=
  if dst = src then (if E.isoMemcpy then .ub else memmove m dst src n)
  else if dst < src + n ∧ src < dst + n then .ub
  else memmove m dst src n

namespace Vec

/-- `vt_vec_push_back(v, v->ptr + off)`, vec.c:162-175. -/
def pushBackOwn (E : Env) (v : Arr) (off : Nat) : Out Arr := do
  let w ← grow E v
  if hasSpace v = 0 then .ub else do
    let m ← memcpySelf E w.mem (wmul w.len w.elsize) off w.elsize
    .ok { w with mem := m, len := wadd w.len 1 }

/-- `vt_vec_insert(v, v->ptr + off, at)`, vec.c:302-328. -/
def insertOwn (E : Env) (v : Arr) (off at_ : Nat) : Out Arr := do
  dassert E (at_ < v.len)
  let w ← grow E v
  let m ← vtMemmove w.mem (wmul (wadd at_ 1) w.elsize) (wmul at_ w.elsize)
            (wmul (wsub w.len at_) w.elsize)
  if hasSpace v = 0 then .ub else do
    let m ← memcpySelf E m (wmul at_ w.elsize) off w.elsize
    .ok { w with mem := m, len := wadd w.len 1 }

/-- `vt_vec_push_front(v, v->ptr + off)`, vec.c:134-143. -/
def pushFrontOwn (E : Env) (v : Arr) (off : Nat) : Out Arr :=
  if v.len ≠ 0 then insertOwn E v off 0 else pushBackOwn E v off

/-- `vt_vec_set(v, v->ptr + off, at)`, vec.c:233-248, with `vt_array_set`, common.c:90-105. -/
def setOwn (E : Env) (v : Arr) (off at_ : Nat) : Out Arr := do
  dassert E (at_ < v.len)
  let m ← memcpySelf E v.mem (wmul at_ v.elsize) off v.elsize
  .ok { v with mem := m }

end Vec

namespace Str

/-- `vt_str_append_n(s, s->ptr + off, n)`, str.c:342-362. -/
def appendNOwn (E : Env) (s : Arr) (off n : Nat) : Out Arr := do
  dassert E (n > 0)
  let w ← grow E s n
  if hasSpace s < n then .ub else do
    let m ← vtMemmove w.mem (wmul w.len w.elsize) off (wmul n w.elsize)
    let m ← putc m (wadd w.len n) 0
    .ok { w with mem := m, len := wadd w.len n }

/-- `vt_str_append(s, s->ptr + off)`, str.c:315-322. -/
def appendOwn (E : Env) (s : Arr) (off : Nat) : Out Arr := do
  let l ← strlen (s.mem.drop off)
  appendNOwn E s off l

/-- `vt_str_insert(s, s->ptr + off, at)`, str.c:364-395. -/
def insertOwn (E : Env) (s : Arr) (off at_ : Nat) : Out Arr := do
  dassert E (at_ < s.len)
  let n ← strlen (s.mem.drop off)
  let w ← grow E s n
  let m ← vtMemmove w.mem (wmul (wadd at_ n) w.elsize) (wmul at_ w.elsize)
            (wmul (wsub w.len at_) w.elsize)
  if hasSpace s < n then .ub else do
    let m ← vtMemmove m (wmul at_ w.elsize) off (wmul n w.elsize)
    let m ← putc m (wadd w.len n) 0
    .ok { w with mem := m, len := wadd w.len n }

/-- `vt_str_set_n(s, s->ptr + off, n)`, str.c:289-313. -/
def setNOwn (E : Env) (s : Arr) (off n : Nat) : Out Arr := do
  dassert E (n > 0)
  enforce (n ≤ s.len)
  let m ← vtMemmove s.mem 0 off (wmul n s.elsize)
  let m ← putc m n 0
  .ok { s with mem := m, len := n }

/-- `vt_str_set(s, s->ptr + off)`, str.c:230-237. -/
def setOwn (E : Env) (s : Arr) (off : Nat) : Out Arr := do
  let l ← strlen (s.mem.drop off)
  setNOwn E s off l

/-- `vt_str_set_at(s, s->ptr + off, at)`, str.c:239-269. -/
def setAtOwn (E : Env) (s : Arr) (off at_ : Nat) : Out Arr := do
  dassert E (at_ < s.len)
  let n ← strlen (s.mem.drop off)
  enforce (n ≤ wsub s.len at_)
  let s ← remove E s at_ (wsub s.len at_)
  appendNOwn E s off n

end Str

end Vita
