import Verif.Base.Mem
/-!
# C library functions on NUL-terminated text

Contracts of `<string.h>` and `<ctype.h>` functions in the "C" locale, written as definitions.  The code passes
plain `char` values to the `<ctype.h>` functions; for bytes above 127 (negative where `char` is signed) ISO C leaves
that undefined, here they get the answer of glibc (no class, no case).
-/

namespace Vita

/-- Read one `char`; an indeterminate one is undefined (the code branches on it). -/
def getc (m : Mem) (i : Nat) : Out UInt8 :=
  match m[i]? with
  | some (some c) => .ok c
  | _ => .ub

/-- Write one `char`. -/
def putc (m : Mem) (i : Nat) (c : UInt8) : Out Mem := writeN m i [some c]

/-- Position of the first occurrence of `n` in `h`. -/
def findSub : (h n : List UInt8) → Option Nat
  | [], n => if n = [] then some 0 else none
  | c :: t, n => if n.isPrefixOf (c :: t) then some 0 else (findSub t n).map (· + 1)

/-- `strstr(m + off, sub)`: offset of the result from the beginning of `m`, `none` for NULL. -/
def strstrAt (m : Mem) (off : Nat) (sub : Mem) : Out (Option Nat) := do
  let h ← cstrAt m off
  let n ← scanZ sub
  .ok ((findSub h n).map (off + ·))

/-- `strlen(m + off)`. -/
def strlenAt (m : Mem) (off : Nat) : Out Nat := do
  let t ← cstrAt m off
  .ok t.length

/-- `strnlen(m, n)`. -/
def strnlen : Mem → Nat → Out Nat
  | _, 0 => .ok 0
  | some c :: t, n + 1 => if c = 0 then .ok 0 else do
      let r ← strnlen t n
      .ok (r + 1)
  | _, _ + 1 => .ub

/-- `strncmp(a, b, n) == 0`. -/
def strncmpEq : Nat → Mem → Mem → Out Bool
  | 0, _, _ => .ok true
  | n + 1, some a :: as, some b :: bs =>
      if a ≠ b then .ok false else if a = 0 then .ok true else strncmpEq n as bs
  | _ + 1, _, _ => .ub

/-- `strchr(m, c)`: offset of the first `c` in the text at `m`, its terminator included. -/
def strchr : Mem → UInt8 → Out (Option Nat)
  | some a :: t, c => if a = c then .ok (some 0) else if a = 0 then .ok none else do
      let r ← strchr t c
      .ok (r.map (· + 1))
  | _, _ => .ub

/-- `isspace`. -/
def isspace (c : UInt8) : Bool := c == 32 || (9 ≤ c && c ≤ 13)
/-- `isdigit`. -/
def isdigit (c : UInt8) : Bool := 48 ≤ c && c ≤ 57
/-- `ispunct`: printable ASCII that is neither space nor alphanumeric. -/
def ispunct (c : UInt8) : Bool :=
  (33 ≤ c && c ≤ 47) || (58 ≤ c && c ≤ 64) || (91 ≤ c && c ≤ 96) || (123 ≤ c && c ≤ 126)
/-- `toupper`. -/
def toupper (c : UInt8) : UInt8 := if 97 ≤ c && c ≤ 122 then c - 32 else c
/-- `tolower`. -/
def tolower (c : UInt8) : UInt8 := if 65 ≤ c && c ≤ 90 then c + 32 else c

/-- `vt_memmove` (core.c:59-72) or `vt_memcopy` (core.c:74-87) from another object. -/
def vtMemcpyIn (m : Mem) (dst : Nat) (src : Mem) (n : Nat) : Out Mem :=
  if n = 0 then .ok m else memcpyIn m dst src n

end Vita
