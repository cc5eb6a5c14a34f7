import Verif.Base.Outcome
/-!
# Memory blocks and the C library functions on them
-/

namespace Vita

/-- One byte of memory: `some b`, or `none` if its value is indeterminate. -/
abbrev Byte := Option UInt8

/-- An allocated block (or the part of an object from some pointer to its end). -/
abbrev Mem := List Byte

/-- Read `n` bytes at offset `off`; reading outside the block is undefined. -/
def readN (m : Mem) (off n : Nat) : Out (List Byte) :=
  if off + n ≤ m.length then .ok ((m.drop off).take n) else .ub

/-- Write the bytes `bs` at offset `off`; writing outside the block is undefined. -/
def writeN (m : Mem) (off : Nat) (bs : List Byte) : Out Mem :=
  if off + bs.length ≤ m.length then .ok (m.take off ++ bs ++ m.drop (off + bs.length)) else .ub

/-- libc `memmove` inside one block. -/
def memmove (m : Mem) (dst src n : Nat) : Out Mem := do
  let bs ← readN m src n
  writeN m dst bs

/-- libc `memcpy(m + dst, src, n)` with the source in a different object. -/
def memcpyIn (m : Mem) (dst : Nat) (src : Mem) (n : Nat) : Out Mem := do
  let bs ← readN src 0 n
  writeN m dst bs

/-- libc `memset(m + dst, b, n)`. -/
def memset (m : Mem) (dst : Nat) (b : UInt8) (n : Nat) : Out Mem :=
  writeN m dst (List.replicate n (some b))

/-- `vt_memmove`, src/vita/core/core.c:59-72, inside one block: nothing for 0 bytes, else `memmove`.
The NULL checks of lines 60-61 hold for pointers into a block. -/
def vtMemmove (m : Mem) (dst src n : Nat) : Out Mem :=
  if n = 0 then .ok m else memmove m dst src n

/-- `vt_memset`, src/vita/core/core.c:89-101. -/
def vtMemset (m : Mem) (dst : Nat) (b : UInt8) (n : Nat) : Out Mem :=
  if n = 0 then .ok m else memset m dst b n

/-- `vt_calloc`, src/vita/core/core.c:25-36: a zero-initialised block. -/
def vtCalloc (E : Env) (n : Nat) : Out Mem := do
  cassert E (n > 0)
  if E.allocOk n then .ok (List.replicate n (some 0)) else .exit .alloc

/-- `vt_realloc`, src/vita/core/core.c:38-49: keeps the common prefix; new bytes are indeterminate.
For `n = 0` in release builds glibc's `realloc` frees the block and returns NULL, so the wrapper
exits (line 43-46). -/
def vtRealloc (E : Env) (m : Mem) (n : Nat) : Out Mem := do
  cassert E (n > 0)
  if n = 0 then .exit .alloc
  else if E.allocOk n then .ok (m.take n ++ List.replicate (n - m.length) none)
  else .exit .alloc

/-- `memcmp(a, b, n) == 0` for two byte sequences that were read from memory.  Comparing an
indeterminate byte makes the result unspecified; the code branches on it, so it is `ub` here. -/
def bytesEq : List Byte → List Byte → Out Bool
  | [], [] => .ok true
  | some a :: as, some b :: bs => if a = b then bytesEq as bs else .ok false
  | _, _ => .ub

/-! ## NUL-terminated text -/

/-- The text starting at the beginning of `m`: the bytes before the first NUL.  Running into
the end of the object or into an indeterminate byte is undefined. -/
def scanZ : Mem → Out (List UInt8)
  | [] => .ub
  | none :: _ => .ub
  | some c :: t => if c = 0 then .ok [] else do
      let r ← scanZ t
      .ok (c :: r)

/-- The text at offset `off`; a pointer beyond the end of the object is undefined. -/
def cstrAt (m : Mem) (off : Nat) : Out (List UInt8) :=
  if off < m.length then scanZ (m.drop off) else .ub

/-- libc `strlen`. -/
def strlen (m : Mem) : Out Nat := do
  let t ← scanZ m
  .ok t.length

end Vita
