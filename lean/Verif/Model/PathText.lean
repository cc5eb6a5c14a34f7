import Verif.Model.Str
/-!
# Model of src/vita/system/path.c: functions on path texts

The build is the one for Linux: the separator is `/`.  Text arguments are as in the model of strings.
-/

namespace Vita.Path

/-- `VT_PATH_SEPARATOR`, inc/vita/system/path.h:57: "/". -/
def sepZ : Mem := [some 47, some 0]

/-- `vt_path_build`, path.c:3-5; `ps` is the memory each list entry points to. -/
def build (E : Env) (s : Option Arr) (ps : List Mem) : Out Arr := Str.join E s sepZ ps

/-- `vt_path_build_n`, path.c:7-25; `ps` are the `n` variadic arguments.  The temporary pointer list is represented by `ps`; its two memory
requests (plist.c:3-18, it never grows) are kept. -/
def buildN (E : Env) (s : Option Arr) (ps : List Mem) : Out Arr := do
  dassert E (ps.length > 0)
  let _ ← vtCalloc E arrStructSize
  let _ ← vtCalloc E (wmul ps.length 8)
  build E s ps

/-- The loop of `vt_path_basename`, path.c:239-244: `i` down to 1; the offset of `ptr`. -/
def baseLoop (z : Mem) (zLen : Nat) : (i : Nat) → Out (Option Nat)
  | 0 => .ok none
  | i + 1 => do
    let c ← getc z (i + 1)
    if c = 47 ∧ i + 1 ≠ wsub zLen 1 then .ok (some (i + 2)) else baseLoop z zLen i

/-- `vt_path_basename`, path.c:221-259; `none` is NULL. -/
def basename (E : Env) (fuel : Nat) (s : Option Arr) (z : Mem) : Out (Option Arr) := do
  let sz ← Str.createStatic z
  let n ← Str.canFind fuel sz sepZ
  if n = 0 then .ok s else do
    let zLen ← strlen z
    let st ← (match s with
      | none => Str.createLen E zLen
      | some s => .ok s)
    let ptr ← baseLoop z zLen (wsub zLen 1)
    let st ← (if st.len < zLen then Str.reserve E st (wsub zLen st.len) else .ok st)
    match ptr with
    | none => .ok (some st)
    | some i => do
      let st ← Str.clear st
      let st ← Str.append E st (z.drop i)
      .ok (some st)

/-- `vt_path_expand_tilda`, path.c:468-498; `home` is the result of `getenv("HOME")`, 126 is `'~'`. -/
def expandTilda (E : Env) (home : Option Mem) (z : Mem) : Out Arr := do
  let s ← Str.create E z
  let pos ← Str.indexOf s 126
  if s.len = 0 ∨ pos ≠ 0 then .ok s else
    match home with
    | none => .ok s
    | some h => do
      let s ← Str.remove E s pos.toNat 1
      Str.insert E s h pos.toNat

/-- `PATH_MAX`, from <limits.h> on Linux. -/
def pathMax : Nat := 4096

/-- `vt_path_get_this_exe_location`, path.c:500-527.  `link` is what `readlink` reports for "/proc/self/exe", `none` if it fails: at most
`PATH_MAX` bytes are stored, without a terminator. -/
def exeLocation (E : Env) (link : Option (List UInt8)) : Out (Option Arr) := do
  let s ← Str.createCapacity E pathMax
  match link with
  | none => .ok none
  | some l => do
    let bs := l.take pathMax
    if bs.length = 0 then .ok none else do
      let m ← writeN s.mem 0 (bs.map some)
      .ok (some { s with mem := m, len := bs.length })

/-- `vt_path_get_cwd`, path.c:27-29; `cwd` is the block returned by `getcwd(NULL, 0)`, `none` if it fails.  Then `vt_str_take_ownership` fails
its assertion or reads through a null pointer. -/
def getCwd (E : Env) (cwd : Option Mem) : Out Arr :=
  match cwd with
  | none => do
    dassert E false
    .ub
  | some z => Str.takeOwnership E z

/-- The loop of `vt_path_pop`, path.c:549-555. -/
def popLoop : (len : Nat) → Mem → Out Mem
  | 0, z => .ok z
  | len + 1, z => do
    let c ← getc z len
    if c = 47 then putc z len 0 else popLoop len z

/-- `vt_path_pop`, path.c:529-556: the new contents of the memory at `z`. -/
def pop (z : Mem) : Out Mem := do
  let s ← Str.createStatic z
  let len := s.len
  let c ← getc z (wsub len 1)
  if c = 47 then putc z (wsub len 1) 0 else do
    let r ← Str.find s sepZ
    match r with
    | none => .ok z
    | some _ => popLoop len z

/-- The loop of `vt_path_validate`, path.c:573-579; 92 is the backslash. -/
def validateLoop : (zlen : Nat) → Mem → Out Mem
  | 0, z => .ok z
  | zlen + 1, z => do
    let c ← getc z zlen
    let z ← (if c = 92 then putc z zlen 47 else .ok z)
    validateLoop zlen z

/-- `vt_path_validate`, path.c:558-580. -/
def validate (z : Mem) : Out Mem := do
  let n ← strlen z
  validateLoop n z

end Vita.Path
