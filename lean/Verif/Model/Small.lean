import Verif.Model.Vec
/-!
# Models of the small modules: index conversions, comparison, core utilities, spans
-/

namespace Vita

/-! ## Index conversions, src/vita/container/common.c -/

namespace Index

/-- `a / b` in `size_t`. -/
def wdiv (a b : Nat) : Out Nat := if b = 0 then .ub else .ok (a / b)
/-- `a % b` in `size_t`. -/
def wmod (a b : Nat) : Out Nat := if b = 0 then .ub else .ok (a % b)

/-- `vt_index_2d_to_1d`, common.c:149-151. -/
def to1d2 (row col ncols : Nat) : Nat := wadd (wmul ncols row) col

/-- `vt_index_1d_to_2d`, common.c:153-160: (row, col). -/
def from1d2 (idx ncols : Nat) : Out (Nat × Nat) := do
  let row ← wdiv idx ncols
  let col ← wmod idx ncols
  .ok (row, col)

/-- `vt_index_3d_to_1d`, common.c:162-164. -/
def to1d3 (row col depth nrows ncols : Nat) : Nat :=
  wadd (wadd (wmul (wmul depth ncols) nrows) (wmul row ncols)) col

/-- `vt_index_1d_to_3d`, common.c:166-176: (row, col, depth). -/
def from1d3 (idx nrows ncols : Nat) : Out (Nat × Nat × Nat) := do
  let depth ← wdiv idx (wmul nrows ncols)
  let off := wsub idx (wmul (wmul depth nrows) ncols)
  let row ← wdiv off ncols
  let col ← wmod off ncols
  .ok (row, col, depth)

end Index

/-! ## Comparison, src/vita/algorithm/comparison.c

One definition for all instances of each macro; the order is that of the type. -/

namespace Cmp

variable {α : Type} [LT α] [DecidableLT α]

/-- `vt_cmp_min*`, comparison.c:4-7. -/
def min (x y : α) : α := if x < y then x else y
/-- `vt_cmp_max*`, comparison.c:22-25. -/
def max (x y : α) : α := if x > y then x else y
/-- `vt_cmp_clamp*`, comparison.c:40-43. -/
def clamp (x l h : α) : α := Cmp.max l (Cmp.min x h)

end Cmp

/-! ## src/vita/core/core.c -/

namespace Core

/-- `vt_gswap(a + ia, b + ib, n)`, core.c:116-131, with the areas in two different objects.  (For areas within one
object see `Vita.gswap`.)  The content of the temporary is overwritten before it is read. -/
def gswap2 (E : Env) (a b : Mem) (ia ib n : Nat) : Out (Mem × Mem) := do
  cassert E (n != 0)
  let temp ← vtCalloc E n
  let xs ← readN a ia n
  let temp ← writeN temp 0 xs
  let ys ← readN b ib n
  let a ← writeN a ia ys
  let xs ← readN temp 0 n
  let b ← writeN b ib xs
  .ok (a, b)

/-- `vt_pswap`, core.c:133-141: the two pointers after the call. -/
def pswap {α : Type} (a b : α) : α × α :=
  let temp := a
  let a := b
  let b := temp
  (a, b)

/-- `vt_memcmp`, core.c:103-112. -/
def memcmp (l r : Mem) (n : Nat) : Out Bool :=
  if n = 0 then .ok false
  else do
    let x ← readN l 0 n
    let y ← readN r 0 n
    bytesEq x y

/-- `enum VitaStatus`, core.h:117-136. -/
inductive Status
  | VT_STATUS_ERROR_IS_NULL | VT_STATUS_ERROR_ALLOCATION | VT_STATUS_ERROR_INVALID_ARGUMENTS | VT_STATUS_ERROR_OUT_OF_MEMORY
  | VT_STATUS_ERROR_OUT_OF_BOUNDS_ACCESS | VT_STATUS_ERROR_INCOMPATIBLE_DATATYPE | VT_STATUS_ERROR_CONVERSION | VT_STATUS_ERROR_ELEMENT_NOT_FOUND
  | VT_STATUS_ERROR_IS_VIEW | VT_STATUS_OPERATION_FAILURE | VT_STATUS_OPERATION_SUCCESS | VT_STATUS_COUNT

/-- The table `vt_error_str`, core.c:3-8 with the list of core.h:117-129, without the
entry for `VT_STATUS_COUNT` itself. -/
def errorStr : List String :=
  ["VT_STATUS_ERROR_IS_NULL", "VT_STATUS_ERROR_ALLOCATION", "VT_STATUS_ERROR_INVALID_ARGUMENTS",
   "VT_STATUS_ERROR_OUT_OF_MEMORY", "VT_STATUS_ERROR_OUT_OF_BOUNDS_ACCESS",
   "VT_STATUS_ERROR_INCOMPATIBLE_DATATYPE", "VT_STATUS_ERROR_CONVERSION", "VT_STATUS_ERROR_ELEMENT_NOT_FOUND",
   "VT_STATUS_ERROR_IS_VIEW", "VT_STATUS_OPERATION_FAILURE", "VT_STATUS_OPERATION_SUCCESS", "VT_STATUS_COUNT"]

/-- The value of an enumerator: its position. -/
def Status.code (s : Status) : Nat := s.ctorIdx

/-- `VT_STATUS_COUNT`, core.h:117-130. -/
def statusCount : Nat := Status.VT_STATUS_COUNT.code

/-- `vt_status_to_str`, core.c:143-149: `none` is NULL, a position outside the table is undefined.  The enum has no
negative members, so its type is unsigned (gcc, clang). -/
def statusToStr (e : Nat) : Out (Option String) :=
  if e < statusCount then
    match errorStr[e]? with
    | some s => .ok (some s)
    | none => .ub
  else .ok none

end Core

/-! ## Spans, src/vita/container/span.c

The window lies in an object whose memory is passed to each operation; `off` is the position of the pointer in it. -/

/-- `vt_span_t`, inc/vita/container/span.h, and `struct VitaBaseArrayType`, common.h:27-45: the fields in use. -/
structure Span where
  off : Nat
  len : Nat
  elsize : Nat
  deriving DecidableEq, Repr

namespace Span

/-- `vt_span_from`, span.c:3-14. -/
def from_ (E : Env) (length elsize : Nat) : Out Span := do
  dassert E (length > 0)
  dassert E (elsize > 0)
  .ok ⟨0, length, elsize⟩

/-- `vt_span_from_to`, span.c:16-28, for a pointer to the beginning of the object `m`: a pointer beyond the end of the
object is undefined. -/
def fromTo (E : Env) (m : Mem) (fromIdx toIdx elsize : Nat) : Out Span := do
  dassert E (fromIdx > 0)
  dassert E (toIdx > 0)
  dassert E (elsize > 0)
  if wmul fromIdx elsize > m.length then .ub
  else .ok ⟨wmul fromIdx elsize, wsub toIdx fromIdx, elsize⟩

/-- `vt_span_len`, span.c:30-32. -/
def length (s : Span) : Nat := s.len

/-- `vt_span_get`, span.c:34-44, with `vt_array_get`, common.c:75-88; the element is read. -/
def get (E : Env) (m : Mem) (s : Span) (at_ : Nat) : Out (List Byte) := do
  dassert E (at_ < s.len)
  dassert E (at_ < s.len)
  readN m (s.off + wmul at_ s.elsize) s.elsize

/-- `vt_span_set`, span.c:63-75, with `vt_array_set`, common.c:90-105: the object afterwards. -/
def set (E : Env) (m : Mem) (s : Span) (val : Mem) (at_ : Nat) : Out Mem := do
  dassert E (at_ < s.len)
  dassert E (at_ < s.len)
  memcpyIn m (s.off + wmul at_ s.elsize) val s.elsize

end Span
end Vita
