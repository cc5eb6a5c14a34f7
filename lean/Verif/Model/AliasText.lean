import Verif.Model.Alias
import Verif.Model.PathText
/-!
# More calls whose argument is the string itself

As in `Model/Alias.lean`: the functions of `str.c` and `path.c` below are given a pointer `off` bytes into
the block of the string they change, or the string object itself as their destination.
-/

namespace Vita
namespace Str

/-- `vt_str_remove_first(s, s->ptr + off)`, str.c:537-564: `z` is read (`strstr`, `strlen`) before the text
is moved, and not afterwards. -/
def removeFirstOwn (s : Arr) (off : Nat) : Out (Arr × Bool) := removeFirst s (s.mem.drop off)

/-- `vt_str_remove_all(s, s->ptr + off)`, str.c:594-604: each round reads the text that is then at `off`. -/
def removeAllOwn (off : Nat) : (fuel : Nat) → Arr → Out Arr
  | 0, _ => .fuel
  | fuel + 1, s => do
    let r ← removeFirstOwn s off
    if r.2 then removeAllOwn off fuel r.1 else .ok r.1

/-- The inner loops of `vt_str_remove_c` (str.c:622-630) and `vt_str_replace_c` (str.c:760-765) with
`c = s->ptr + off`: the first of the indices `j, j + 1, …, j + k - 1` with `c[j] = x`. -/
def ownIdx (m : Mem) (off : Nat) (x : UInt8) : (k : Nat) → (j : Nat) → Out (Option Nat)
  | 0, _ => .ok none
  | k + 1, j => do
    let y ← getc m (off + j)
    if x = y then .ok (some j) else ownIdx m off x k (j + 1)

/-- The loop of `vt_str_remove_c`, str.c:621-639, with `c = s->ptr + off` of length `n`. -/
def removeCLoopOwn (off n : Nat) : (k : Nat) → Mem → (i offset : Nat) → Out (Mem × Nat)
  | 0, m, _, offset => .ok (m, offset)
  | k + 1, m, i, offset => do
    let x ← getc m i
    let r ← ownIdx m off x n 0
    if r.isSome then removeCLoopOwn off n k m (i + 1) (offset + 1)
    else do
      let m ← putc m (i - offset) x
      removeCLoopOwn off n k m (i + 1) offset

/-- `vt_str_remove_c(s, s->ptr + off)`, str.c:606-644. -/
def removeCOwn (s : Arr) (off : Nat) : Out Arr := do
  let n ← strlen (s.mem.drop off)
  let r ← removeCLoopOwn off n s.len s.mem 0 0
  let m ← putc r.1 (wsub s.len r.2) 0
  .ok { s with mem := m, len := wsub s.len r.2 }

/-- `vt_str_strip_c(s, s->ptr + off)`, str.c:837-895: both loops read `c` before the text is moved. -/
def stripCOwn (fuel : Nat) (s : Arr) (off : Nat) : Out Arr := stripC fuel s (s.mem.drop off)

/-- The loop of `vt_str_replace`, str.c:660-676, with `sub = s->ptr + off`.  If the replacement had to enlarge
the block (the capacity has changed), `sub` is invalid at the next `strstr`. -/
def replaceLoopOwn (E : Env) (off : Nat) (rsub : Mem) (n r : Nat) : (fuel : Nat) → Arr → (p : Nat) → Out Arr
  | 0, _, _ => .fuel
  | fuel + 1, s, p => do
    let q ← strstrAt s.mem p (s.mem.drop off)
    match q with
    | none => .ok s
    | some i => do
      let w ← replaceAt E s i n r rsub
      if w.cap ≠ s.cap then .ub else replaceLoopOwn E off rsub n r fuel w (i + r)

/-- `vt_str_replace(s, s->ptr + off, rsub)`, str.c:646-677. -/
def replaceOwn (E : Env) (fuel : Nat) (s : Arr) (off : Nat) (rsub : Mem) : Out Arr := do
  let n ← strlen (s.mem.drop off)
  let r ← strlen rsub
  if n = 0 ∨ r = 0 then .ok s else replaceLoopOwn E off rsub n r fuel s 0

/-- `vt_str_replace_first(s, s->ptr + off, rsub)`, str.c:679-705: `sub` is read before the change only. -/
def replaceFirstOwn (E : Env) (s : Arr) (off : Nat) (rsub : Mem) : Out Arr :=
  replaceFirst E s (s.mem.drop off) rsub

/-- The outer loop of `vt_str_replace_c`, str.c:759-766, with `c = s->ptr + off` of length `n`. -/
def replaceCLoopOwn (off n : Nat) (r : List UInt8) : (k : Nat) → Mem → (i : Nat) → Out Mem
  | 0, m, _ => .ok m
  | k + 1, m, i => do
    let x ← getc m i
    let q ← ownIdx m off x n 0
    match q with
    | none => replaceCLoopOwn off n r k m (i + 1)
    | some j => do
      let m ← putc m i (if j < r.length then r.getD j 0 else r.getD (r.length - 1) 0)
      replaceCLoopOwn off n r k m (i + 1)

/-- `vt_str_replace_c(s, s->ptr + off, r)`, str.c:741-767. -/
def replaceCOwn (s : Arr) (off : Nat) (r : Mem) : Out Arr := do
  let rs ← scanZ r
  let n ← strlen (s.mem.drop off)
  enforce (rs.length ≤ n)
  if rs.length = 0 ∨ n = 0 then .ok s else do
    let m ← replaceCLoopOwn off n rs s.len s.mem 0
    .ok { s with mem := m }

/-- `vt_str_split_between(s, s->ptr + off, zl, zr)`, str.c:991-1027.  `vt_str_resize` (str.c:210-228) always
reallocates, so the source is invalid when line 1019 uses it. -/
def splitBetweenOwn (E : Env) (s : Arr) (off : Nat) (zl zr : Mem) : Out (Option Arr) := do
  let l ← strstrAt (s.mem.drop off) 0 zl
  match l with
  | none => .ok none
  | some l => do
    let r ← strstrAt (s.mem.drop off) 0 zr
    match r with
    | none => .ok none
    | some r => do
      let st ← clear s
      if l < r then do
        let n ← strlen zl
        let _ ← resize E st (wsub (r - l) n)
        .ub
      else .ok none

/-- `vt_str_pop_get_first(s, s, sep)`, str.c:1084-1128: the popped field is to be stored in the string it is
taken from. -/
def popGetFirstSelf (E : Env) (s : Arr) (sep : Mem) : Out Arr := do
  let n ← strlen sep
  if s.len = 0 ∨ n = 0 then .ok s else do
    let t ← strstrAt s.mem 0 sep
    match t with
    | none => .ok s
    | some i => do
      let tl ← strlenAt s.mem i
      let copyLen := wsub s.len tl
      if copyLen = 0 then .ok s else do
        let s ← (if s.len < copyLen then reserve E s (wsub copyLen s.len) else .ok s)
        let s ← clear s
        let s ← appendNOwn E s 0 copyLen
        remove E s 0 (wadd copyLen n)

/-- `vt_str_pop_get_last(s, s, sep)`, str.c:1130-1186.  (If line 1172 reallocates, `lastInstance` is invalid.) -/
def popGetLastSelf (E : Env) (fuel : Nat) (s : Arr) (sep : Mem) : Out Arr := do
  let n ← strlen sep
  if s.len = 0 ∨ n = 0 then .ok s else do
    let t ← strstrAt s.mem 0 sep
    match t with
    | none => .ok s
    | some i => do
      let l ← lastInstance s.mem sep n fuel i
      let tl ← strlenAt s.mem l
      let copyLen := wsub tl n
      if copyLen = 0 then .ok s else
        if s.len < copyLen then do
          let _ ← reserve E s (wadd (wsub copyLen s.len) 1)
          .ub
        else do
          let s ← clear s
          let s ← appendNOwn E s (l + n) copyLen
          remove E s (wsub (wsub s.len copyLen) n) (wadd copyLen n)

end Str

namespace Path

/-- `vt_path_basename(s, s->ptr + off)`, path.c:221-259, in the string the path is in.  (If the string had to be
enlarged, the path would be invalid.) -/
def basenameOwn (E : Env) (fuel : Nat) (s : Arr) (off : Nat) : Out Arr := do
  let sz ← Str.createStatic (s.mem.drop off)
  let n ← Str.canFind fuel sz sepZ
  if n = 0 then .ok s else do
    let zLen ← strlen (s.mem.drop off)
    let ptr ← baseLoop (s.mem.drop off) zLen (wsub zLen 1)
    if s.len < zLen then do
      let _ ← Str.reserve E s (wsub zLen s.len)
      .ub
    else
      match ptr with
      | none => .ok s
      | some i => do
        let s ← Str.clear s
        Str.appendOwn E s (off + i)

end Path
end Vita
