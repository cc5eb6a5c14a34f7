import Verif.Model.Vec
import Verif.Base.CStr
/-!
# Model of src/vita/container/str.c

A string is an `Arr` (common.h:27-45) with `elsize = 1` whose block has one byte more than its
capacity.  Text arguments (`const char *z`) are the memory from the pointer to the end of the
object it points into; they never overlap the block of `s`.  NULL checks are dropped: arguments are
non-NULL.  `destroy` (str.c:66-87) has no modelled effect, a string is not used after it.
-/

namespace Vita

/-- `VT_STR_TMP_BUFFER_SIZE`, inc/vita/container/str.h:71. -/
def tmpBufferSize : Nat := 1024

/-- `VT_ARRAY_DEFAULT_INIT_ELEMENTS`, inc/vita/core/core.h:52. -/
def defaultInit : Nat := 16

namespace Str

/-- `vt_str_create_static`, str.c:6-19.  The fields not named in the initialiser are zero. -/
def createStatic (z : Mem) : Out Arr := do
  let l ← strlen z
  .ok { len := l, cap := 0, elsize := 1, slider := 0, isView := true, mem := z }

/-- `vt_str_clear`, str.c:179-189. -/
def clear (s : Arr) : Out Arr := do
  let m ← putc s.mem 0 0
  .ok { s with mem := m, len := 0 }

/-- `vt_str_create_len`, str.c:35-53; 63 is `'?'`. -/
def createLen (E : Env) (n : Nat) : Out Arr := do
  dassert E (n > 0)
  let _ ← vtCalloc E arrStructSize
  let m ← vtCalloc E (wmul (wadd n 1) 1)
  let m ← vtMemset m 0 63 n
  .ok { len := n, cap := n, elsize := 1, slider := 0, isView := false, mem := m }

/-- `vt_str_create_capacity`, str.c:55-64. -/
def createCapacity (E : Env) (n : Nat) : Out Arr := do
  dassert E (n > 0)
  let s ← createLen E n
  clear s

/-- `vt_str_set_n`, str.c:289-313. -/
def setN (E : Env) (s : Arr) (z : Mem) (n : Nat) : Out Arr := do
  dassert E (n > 0)
  enforce (n ≤ s.len)
  let m ← vtMemcpyIn s.mem 0 z (wmul n s.elsize)
  let m ← putc m n 0
  .ok { s with mem := m, len := n }

/-- `vt_str_create`, str.c:21-33. -/
def create (E : Env) (z : Mem) : Out Arr := do
  let l ← strlen z
  let s ← createLen E l
  setN E s z l

/-- `vt_str_dup`, str.c:89-95. -/
def dup (E : Env) (s : Arr) : Out Arr := create E s.mem

/-- `vt_str_take_ownership`, str.c:97-115: the block `z` becomes the block of the string. -/
def takeOwnership (E : Env) (z : Mem) : Out Arr := do
  let _ ← vtCalloc E arrStructSize
  let l ← strlen z
  .ok { len := l, cap := l, elsize := 1, slider := 0, isView := false, mem := z }

/-- `vt_str_z`, str.c:117-123, as the text a reader sees at the returned pointer. -/
def z (s : Arr) : Out (List UInt8) := scanZ s.mem

/-- `vt_str_len`, str.c:125-127. -/
def length (s : Arr) : Nat := s.len

/-- `vt_str_is_empty`, str.c:137-139. -/
def isEmpty (s : Arr) : Bool := s.len == 0

/-- `vt_str_validate_len`, str.c:141-154. -/
def validateLen (s : Arr) : Out (Arr × Nat) := do
  let l ← strnlen s.mem s.cap
  let m ← putc s.mem l 0
  .ok ({ s with mem := m, len := l }, l)

/-- `vt_str_shrink`, str.c:156-177. -/
def shrink (E : Env) (s : Arr) : Out Arr := do
  enforce (!s.isView)
  if s.len = s.cap then .ok s else do
    let m ← vtRealloc E s.mem (wmul (wadd s.len 1) s.elsize)
    let m ← putc m s.len 0
    .ok { s with mem := m, cap := s.len }

/-- `vt_str_reserve`, str.c:191-208. -/
def reserve (E : Env) (s : Arr) (n : Nat) : Out Arr := do
  dassert E (n > 0)
  enforce (!s.isView)
  let m ← vtRealloc E s.mem (wmul (wadd (wadd s.cap n) 1) s.elsize)
  let m ← putc m (wadd s.cap n) 0
  .ok { s with mem := m, cap := wadd s.cap n }

/-- `vt_str_resize`, str.c:210-228. -/
def resize (E : Env) (s : Arr) (n : Nat) : Out Arr := do
  dassert E (n > 0)
  enforce (!s.isView)
  let m ← vtRealloc E s.mem (wmul (wadd n 1) s.elsize)
  let m ← putc m n 0
  .ok { s with mem := m, len := if n < s.len then n else s.len, cap := n }

/-- `vt_str_set`, str.c:230-237. -/
def set (E : Env) (s : Arr) (z : Mem) : Out Arr := do
  let l ← strlen z
  setN E s z l

/-- The growth step of `append_n` (str.c:349-352), `insert` (str.c:379-382) and
`insert_n` (str.c:456-460): make room for `n` characters. -/
def grow (E : Env) (s : Arr) (n : Nat) : Out Arr :=
  if hasSpace s < n then reserve E s (wsub n (hasSpace s)) else .ok s

/-- `vt_str_append_n`, str.c:342-362. -/
def appendN (E : Env) (s : Arr) (z : Mem) (n : Nat) : Out Arr := do
  dassert E (n > 0)
  let s ← grow E s n
  let m ← vtMemcpyIn s.mem (wmul s.len s.elsize) z (wmul n s.elsize)
  let m ← putc m (wadd s.len n) 0
  .ok { s with mem := m, len := wadd s.len n }

/-- `vt_str_append`, str.c:315-322. -/
def append (E : Env) (s : Arr) (z : Mem) : Out Arr := do
  let l ← strlen z
  appendN E s z l

/-- `vt_str_vfmt_append`, str.c:1428-1462, and its caller `vt_str_appendf`, str.c:324-340.  `out` is
the text the formatter produces; for a failing formatter see `appendfStatus`. -/
def appendf (E : Env) (s : Arr) (out : List UInt8) : Out Arr := do
  let s ← grow E s out.length
  let m ← writeN s.mem (wmul s.len s.elsize) (out.map some ++ [some 0])
  let m ← putc m (wadd s.len out.length) 0
  .ok { s with mem := m, len := wadd s.len out.length }

/-- `vt_str_insert_n`, str.c:449-473. -/
def insertN (E : Env) (s : Arr) (z : Mem) (at_ n : Nat) : Out Arr := do
  dassert E (n > 0)
  let s ← grow E s n
  let m ← vtMemmove s.mem (wmul (wadd at_ n) s.elsize) (wmul at_ s.elsize)
            (wmul (wsub s.len at_) s.elsize)
  let m ← vtMemcpyIn m (wmul at_ s.elsize) z (wmul n s.elsize)
  let m ← putc m (wadd s.len n) 0
  .ok { s with mem := m, len := wadd s.len n }

/-- `vt_str_insert`, str.c:364-395. -/
def insert (E : Env) (s : Arr) (z : Mem) (at_ : Nat) : Out Arr := do
  dassert E (at_ < s.len)
  let n ← strlen z
  let s ← grow E s n
  let m ← vtMemmove s.mem (wmul (wadd at_ n) s.elsize) (wmul at_ s.elsize)
            (wmul (wsub s.len at_) s.elsize)
  let m ← vtMemcpyIn m (wmul at_ s.elsize) z (wmul n s.elsize)
  let m ← putc m (wadd s.len n) 0
  .ok { s with mem := m, len := wadd s.len n }

/-- `vt_str_vfmt_set`, str.c:1385-1419; `len` there is the length of the output plus one.  The addition of
line 1395 is one of `int` values: for an output of `INT_MAX` characters it overflows, which is undefined. -/
def vfmtSet (E : Env) (s : Arr) (out : List UInt8) : Out Arr :=
  if 2 ^ 31 ≤ out.length + 1 then .ub else do
    let len := wadd out.length 1
    let s ← grow E s len
    let m ← writeN s.mem 0 (out.map some ++ [some 0])
    let m ← putc m len 0
    .ok { s with mem := m, len := len }

/-- `vt_str_insertf`, str.c:397-447: through a zeroed stack buffer (lines 421-428) or a temporary
string (lines 429-442). -/
def insertf (E : Env) (s : Arr) (at_ : Nat) (out : List UInt8) : Out Arr :=
  if out.length < tmpBufferSize - 1 then do
    let buf ← writeN (List.replicate tmpBufferSize (some 0)) 0 (out.map some ++ [some 0])
    insert E s buf at_
  else do
    let t ← createLen E out.length
    let t ← vfmtSet E t out
    insert E s t.mem at_

/-- What `vsnprintf(NULL, 0, fmt, args)` (str.c:410, 1395, 1438) answers: `none` (a negative number) for a formatting
error and, as its result is an `int`, for a text longer than `INT_MAX`; otherwise the length of this text. -/
def printed (out : Option (List UInt8)) : Option (List UInt8) :=
  match out with
  | none => none
  | some o => if o.length < 2 ^ 31 then some o else none

/-- `vt_str_appendf`, str.c:324-340, with its status (`true`: success).  `out` is what the formatter produces, `none`
if it fails.  The missing `va_end` on the failure path is in `Model/VaList.lean`. -/
def appendfStatus (E : Env) (s : Arr) (out : Option (List UInt8)) : Out (Arr × Bool) :=
  match printed out with
  | none => .ok (s, false)
  | some o => do
    let s ← appendf E s o
    .ok (s, true)

/-- `vt_str_insertf`, str.c:397-447, with its status.  The failure of lines 432-435 needs an output that can be
formatted at line 410 and not at line 1395; it is in `Model/FormatCalls.lean`. -/
def insertfStatus (E : Env) (s : Arr) (at_ : Nat) (out : Option (List UInt8)) : Out (Arr × Bool) :=
  match printed out with
  | none => .ok (s, false)
  | some o => do
    let s ← insertf E s at_ o
    .ok (s, true)

/-- `vt_str_remove`, str.c:509-535. -/
def remove (E : Env) (s : Arr) (from_ n : Nat) : Out Arr := do
  dassert E (n > 0)
  dassert E (from_ < s.len)
  let n := if n > wsub s.len from_ then wsub s.len from_ else n
  let m ← vtMemmove s.mem (wmul from_ s.elsize) (wmul (wadd from_ n) s.elsize)
            (wmul (wsub s.len (wadd from_ n)) s.elsize)
  let m ← putc m (wsub s.len n) 0
  .ok { s with mem := m, len := wsub s.len n }

/-- `vt_str_set_at`, str.c:239-269 (the returned status is always success). -/
def setAt (E : Env) (s : Arr) (z : Mem) (at_ : Nat) : Out Arr := do
  dassert E (at_ < s.len)
  let n ← strlen z
  enforce (n ≤ wsub s.len at_)
  let s ← remove E s at_ (wsub s.len at_)
  appendN E s z n

/-- `vt_str_set_c`, str.c:271-287. -/
def setC (E : Env) (s : Arr) (c : UInt8) (at_ : Nat) : Out Arr := do
  dassert E (at_ < s.len)
  let m ← putc s.mem at_ c
  .ok { s with mem := m }

/-- `vt_str_find`, str.c:897-905, as the offset of the result (`none`: NULL). -/
def find (s : Arr) (sub : Mem) : Out (Option Nat) := do
  let n ← strlen sub
  enforce (n ≤ s.len)
  strstrAt s.mem 0 sub

/-- `vt_str_index_find`, str.c:1337-1350. -/
def indexFind (s : Arr) (sub : Mem) : Out Int := do
  let r ← find s sub
  match r with
  | none => .ok (-1)
  | some i => .ok (i : Int)

/-- `vt_str_index_of`, str.c:1324-1335. -/
def indexOf (s : Arr) (c : UInt8) : Out Int := do
  let r ← strchr s.mem c
  match r with
  | none => .ok (-1)
  | some i => .ok (i : Int)

/-- `vt_str_insert_before`, str.c:475-490 (no status is returned). -/
def insertBefore (E : Env) (s : Arr) (sub z : Mem) : Out Arr := do
  let idx ← indexFind s sub
  if idx < 0 then .ok s else insert E s z idx.toNat

/-- `vt_str_insert_after`, str.c:492-507. -/
def insertAfter (E : Env) (s : Arr) (sub z : Mem) : Out Arr := do
  let idx ← indexFind s sub
  if idx < 0 then .ok s else do
    let n ← strlen sub
    insert E s z (wadd idx.toNat n)

/-- `vt_str_remove_first`, str.c:537-564: the new string and whether `z` was found. -/
def removeFirst (s : Arr) (z : Mem) : Out (Arr × Bool) := do
  let sub ← strstrAt s.mem 0 z
  match sub with
  | none => .ok (s, false)
  | some i => do
    let n ← strlen z
    let diff := wsub (wmul s.len s.elsize) (wadd i (wmul n s.elsize))
    let m ← vtMemmove s.mem i (wadd i (wmul n s.elsize)) (wmul diff s.elsize)
    let m ← putc m (wsub s.len n) 0
    .ok ({ s with mem := m, len := wsub s.len n }, true)

/-- The search for the last instance in `remove_last` (str.c:575-579), `replace_last` (str.c:720-724)
and `pop_get_last` (str.c:1149-1153): `p` is the current instance. -/
def lastInstance (m : Mem) (z : Mem) (n : Nat) : (fuel : Nat) → (p : Nat) → Out Nat
  | 0, _ => .fuel
  | fuel + 1, p => do
    let r ← strstrAt m (p + n) z
    match r with
    | none => .ok p
    | some q => lastInstance m z n fuel q

/-- `vt_str_remove_last`, str.c:566-592.  If there is no instance, line 576 passes
NULL + zLen to `strstr`: undefined. -/
def removeLast (E : Env) (fuel : Nat) (s : Arr) (z : Mem) : Out (Arr × Bool) := do
  let n ← strlen z
  let p ← strstrAt s.mem 0 z
  match p with
  | none => .ub
  | some p => do
    let l ← lastInstance s.mem z n fuel p
    let s ← remove E s (wsub (wmul s.len s.elsize) l) n
    .ok (s, true)

/-- `vt_str_remove_all`, str.c:594-604: the `while` loop. -/
def removeAll : (fuel : Nat) → Arr → Mem → Out Arr
  | 0, _, _ => .fuel
  | fuel + 1, s, z => do
    let r ← removeFirst s z
    if r.2 then removeAll fuel r.1 z else .ok r.1

/-- Is the character `x` among the first characters of `c` (inner loops of `remove_c`, `strip_c`)? -/
def inSet (c : List UInt8) (x : UInt8) : Bool := c.contains x

/-- The loop of `vt_str_remove_c`, str.c:621-639, for the `k` remaining indices from `i`; returns the
block and the final `offset`. -/
def removeCLoop (c : List UInt8) : (k : Nat) → Mem → (i offset : Nat) → Out (Mem × Nat)
  | 0, m, _, offset => .ok (m, offset)
  | k + 1, m, i, offset => do
    let x ← getc m i
    if inSet c x then removeCLoop c k m (i + 1) (offset + 1)
    else do
      let m ← putc m (i - offset) x
      removeCLoop c k m (i + 1) offset

/-- `vt_str_remove_c`, str.c:606-644. -/
def removeC (s : Arr) (c : Mem) : Out Arr := do
  let cs ← scanZ c
  let r ← removeCLoop cs s.len s.mem 0 0
  let m ← putc r.1 (wsub s.len r.2) 0
  .ok { s with mem := m, len := wsub s.len r.2 }

/-- The replacement step shared by `replace` (str.c:663-670), `replace_first` (str.c:696-703) and
`replace_last` (str.c:730-737): put `rsub` in place of the `subLen` characters at `i`. -/
def replaceAt (E : Env) (s : Arr) (i subLen rsubLen : Nat) (rsub : Mem) : Out Arr :=
  if subLen = rsubLen then do
    let m ← vtMemcpyIn s.mem i rsub rsubLen
    .ok { s with mem := m }
  else do
    let s ← remove E s i subLen
    if i < s.len then insert E s rsub i else append E s rsub

/-- The loop of `vt_str_replace`, str.c:660-676, searching from offset `p`. -/
def replaceLoop (E : Env) (sub rsub : Mem) (n r : Nat) : (fuel : Nat) → Arr → (p : Nat) → Out Arr
  | 0, _, _ => .fuel
  | fuel + 1, s, p => do
    let q ← strstrAt s.mem p sub
    match q with
    | none => .ok s
    | some i => do
      let s ← replaceAt E s i n r rsub
      replaceLoop E sub rsub n r fuel s (i + r)

/-- `vt_str_replace`, str.c:646-677. -/
def replace (E : Env) (fuel : Nat) (s : Arr) (sub rsub : Mem) : Out Arr := do
  let n ← strlen sub
  let r ← strlen rsub
  if n = 0 ∨ r = 0 then .ok s else replaceLoop E sub rsub n r fuel s 0

/-- `vt_str_replace_first`, str.c:679-705. -/
def replaceFirst (E : Env) (s : Arr) (sub rsub : Mem) : Out Arr := do
  let n ← strlen sub
  let r ← strlen rsub
  if n = 0 ∨ r = 0 then .ok s else do
    let q ← find s sub
    match q with
    | none => .ok s
    | some i => replaceAt E s i n r rsub

/-- `vt_str_replace_last`, str.c:707-739.  If there is no instance, line 722 passes
NULL + subLen to `strstr`: undefined. -/
def replaceLast (E : Env) (fuel : Nat) (s : Arr) (sub rsub : Mem) : Out Arr := do
  let n ← strlen sub
  let r ← strlen rsub
  if n = 0 ∨ r = 0 then .ok s else do
    let p ← strstrAt s.mem 0 sub
    match p with
    | none => .ub
    | some p => do
      let l ← lastInstance s.mem sub n fuel p
      replaceAt E s l n r rsub

/-- The inner loop of `vt_str_replace_c`, str.c:760-765: the replacement of the character `x` (the
first `j` with `c[j] = x` decides), `none` if `x` is kept. -/
def replaceCOne (c r : List UInt8) (x : UInt8) : Option UInt8 :=
  if c.contains x then
    let j := c.idxOf x
    if j < r.length then r[j]? else r[r.length - 1]?
  else none

/-- The outer loop of `vt_str_replace_c`, str.c:759-766. -/
def replaceCLoop (c r : List UInt8) : (k : Nat) → Mem → (i : Nat) → Out Mem
  | 0, m, _ => .ok m
  | k + 1, m, i => do
    let x ← getc m i
    match replaceCOne c r x with
    | none => replaceCLoop c r k m (i + 1)
    | some y => do
      let m ← putc m i y
      replaceCLoop c r k m (i + 1)

/-- `vt_str_replace_c`, str.c:741-767. -/
def replaceC (s : Arr) (c r : Mem) : Out Arr := do
  let rs ← scanZ r
  let cs ← scanZ c
  enforce (rs.length ≤ cs.length)
  if rs.length = 0 ∨ cs.length = 0 then .ok s else do
    let m ← replaceCLoop cs rs s.len s.mem 0
    .ok { s with mem := m }

/-- The leading loop of the strip functions (str.c:781-784, 815-818): the first offset whose
character does not satisfy `p`.  `fuel` only bounds the recursion: a run that leaves the block is `ub`. -/
def stripFront (p : UInt8 → Bool) (m : Mem) : (fuel : Nat) → (offset : Nat) → Out Nat
  | 0, _ => .fuel
  | fuel + 1, offset => do
    let x ← getc m offset
    if p x then stripFront p m fuel (offset + 1) else .ok offset

/-- The trailing loop of the strip functions (str.c:790-794, 824-828). -/
def stripBack (p : UInt8 → Bool) (m : Mem) (offset : Nat) : (fuel : Nat) → (len : Nat) → Out Nat
  | 0, _ => .fuel
  | fuel + 1, len => do
    let x ← getc m (wsub (wadd len offset) 1)
    if p x then stripBack p m offset fuel (wsub len 1) else .ok len

/-- The common body of `strip` (str.c:769-801) and `strip_punct` (str.c:803-835) for the strippable characters `p`. -/
def stripBy (p : UInt8 → Bool) (fuel : Nat) (s : Arr) : Out Arr := do
  let offset ← stripFront p s.mem fuel 0
  let len ← stripBack p s.mem offset fuel (wsub s.len offset)
  let m ← vtMemmove s.mem 0 offset len
  let m ← putc m len 0
  .ok { s with mem := m, len := len }

/-- `vt_str_strip`, str.c:769-801. -/
def strip (fuel : Nat) (s : Arr) : Out Arr := stripBy isspace fuel s

/-- `vt_str_strip_punct`, str.c:803-835. -/
def stripPunct (fuel : Nat) (s : Arr) : Out Arr := stripBy (fun x => isspace x || ispunct x) fuel s

/-- The inner `for` loop of `vt_str_strip_c`, str.c:853-865 and 873-885: did the character `x` match one of
the remaining set characters, and the final value of `stop`. -/
def stripCFor (x : UInt8) : (c : List UInt8) → (stop : Bool) → Bool × Bool
  | [], stop => (false, stop)
  | y :: c, _ => if x = y then (true, false) else stripCFor x c true

/-- The leading loop of `vt_str_strip_c`, str.c:852-866.  (The C code reads `*curr` only if the set is not
empty; reading it in any case makes no difference for a terminated text.) -/
def stripCFront (c : List UInt8) (m : Mem) : (fuel : Nat) → (offset : Nat) → Out Nat
  | 0, _ => .fuel
  | fuel + 1, offset => do
    let x ← getc m offset
    let r := stripCFor x c false
    if r.1 then stripCFront c m fuel (offset + 1)
    else if r.2 then .ok offset else stripCFront c m fuel offset

/-- The trailing loop of `vt_str_strip_c`, str.c:872-887. -/
def stripCBack (c : List UInt8) (m : Mem) (offset : Nat) : (fuel : Nat) → (len : Nat) → Out Nat
  | 0, _ => .fuel
  | fuel + 1, len => do
    let x ← getc m (wsub (wadd len offset) 1)
    let r := stripCFor x c false
    if r.1 then stripCBack c m offset fuel (wsub len 1)
    else if r.2 then .ok len else stripCBack c m offset fuel len

/-- `vt_str_strip_c`, str.c:837-895. -/
def stripC (fuel : Nat) (s : Arr) (c : Mem) : Out Arr := do
  let cs ← scanZ c
  let offset ← stripCFront cs s.mem fuel 0
  let len ← stripCBack cs s.mem offset fuel (wsub s.len offset)
  let m ← vtMemmove s.mem 0 offset len
  let m ← putc m len 0
  .ok { s with mem := m, len := len }

/-- The loop of `vt_str_can_find`, str.c:918-922. -/
def countLoop (m sub : Mem) (n : Nat) : (fuel : Nat) → (p count : Nat) → Out Nat
  | 0, _, _ => .fuel
  | fuel + 1, p, count => do
    let q ← strstrAt m p sub
    match q with
    | none => .ok count
    | some i => countLoop m sub n fuel (i + n) (count + 1)

/-- `vt_str_can_find`, str.c:907-925. -/
def canFind (fuel : Nat) (s : Arr) (sub : Mem) : Out Nat := do
  let n ← strlen sub
  enforce (n ≤ s.len)
  countLoop s.mem sub n fuel 0 0

/-- The loop of `vt_str_split`, str.c:961-986.  The computation `head = current + sepLen` of line 979
for `current = NULL` is not used and treated as harmless. -/
def splitLoop (E : Env) (m sep : Mem) (n : Nat) :
    (fuel : Nat) → (head : Nat) → (acc : List Arr) → Out (List Arr)
  | 0, _, _ => .fuel
  | fuel + 1, head, acc => do
    let current ← strstrAt m head sep
    let hl ← strlenAt m head
    let cl ← (match current with
      | none => .ok 0
      | some c => strlenAt m c)
    let copyLen := wsub hl cl
    if copyLen = 0 then splitLoop E m sep n fuel (head + n) acc
    else do
      let t ← createLen E copyLen
      let t ← setN E t (m.drop head) copyLen
      match current with
      | none => .ok (acc ++ [t])
      | some c => do
        let x ← getc m (c + n)
        if x = 0 then .ok (acc ++ [t]) else splitLoop E m sep n fuel (c + n) (acc ++ [t])

/-- `vt_str_split`, str.c:927-989, with `ps == NULL`.  The list of pointers is represented by the list of
the strings pointed to; its own storage (created for `strInstances + 1` entries, line 942) is
in `Own.split` (`Model/OwnerLib.lean`), as is a destination `ps`. -/
def split (E : Env) (fuel : Nat) (s : Arr) (sep : Mem) : Out (Option (List Arr)) := do
  let k ← canFind fuel s sep
  if k = 0 then .ok none else do
    let n ← strlen sep
    let r ← splitLoop E s.mem sep n fuel 0 []
    .ok (some r)

/-- `vt_str_split_between`, str.c:991-1027.  `s` is the destination (`none`: NULL).  `sub_len` is a
`ptrdiff_t` assigned from an unsigned computation and passed on as `size_t`; all uses agree modulo
2^64.  The outer `none` of the result is the returned NULL; the destination's final state is dropped
in that case. -/
def splitBetween (E : Env) (s : Option Arr) (z zl zr : Mem) : Out (Option Arr) := do
  let l ← strstrAt z 0 zl
  match l with
  | none => .ok none
  | some l => do
    let r ← strstrAt z 0 zr
    match r with
    | none => .ok none
    | some r => do
      let st ← (match s with
        | none => createCapacity E defaultInit
        | some s => .ok s)
      let st ← clear st
      if l < r then do
        let n ← strlen zl
        let subLen := wsub (r - l) n
        let st ← resize E st subLen
        let st ← appendN E st (z.drop (wsub r subLen)) subLen
        .ok (some st)
      else .ok none

/-- The loop of `vt_str_join`, str.c:1045-1048. -/
def joinLoop (E : Env) (sep : Mem) : List Mem → Arr → Out Arr
  | [], st => .ok st
  | z :: t, st => do
    let st ← append E st sep
    let st ← append E st z
    joinLoop E sep t st

/-- `vt_str_join`, str.c:1029-1051.  `ps` is the memory each list entry points to: entries are passed to
`vt_str_append`, that is, used as C strings.  `vt_plist_get(p, 0)` on an empty list is a
failed assertion in debug builds and an access outside the list otherwise. -/
def join (E : Env) (s : Option Arr) (sep : Mem) (ps : List Mem) : Out Arr := do
  let st ← (match s with
    | none => createCapacity E defaultInit
    | some s => .ok s)
  match ps with
  | [] => do
    dassert E false
    .ub
  | z :: t => do
    let st ← append E st z
    joinLoop E sep t st

/-- The memory of a string object itself (inc/vita/container/common.h:27-45, LP64 little endian): what
`vt_str_join` reads when a list entry is a `vt_str_t*`, as stored by `vt_str_split` (str.c:976).  Of
the 56 bytes only the first four fields are given values; the view flag, padding, data and allocator
pointers are left indeterminate. -/
def structMem (s : Arr) : Mem :=
  Vec.leBytes 8 s.len ++ Vec.leBytes 8 s.cap ++ Vec.leBytes 8 s.elsize ++ Vec.leBytes 8 s.slider ++
    List.replicate 24 none

/-- The loop of `vt_str_join_n`, str.c:1067-1078, over the remaining arguments. -/
def joinNLoop (E : Env) (sep : Mem) : List Mem → Arr → Out Arr
  | [], st => .ok st
  | [z], st => append E st z
  | z :: t, st => do
    let st ← append E st z
    let st ← append E st sep
    joinNLoop E sep t st

/-- `vt_str_join_n`, str.c:1053-1082; `ps` are the `n` variadic arguments. -/
def joinN (E : Env) (s : Option Arr) (sep : Mem) (ps : List Mem) : Out Arr := do
  dassert E (ps.length > 0)
  let st ← (match s with
    | none => createCapacity E defaultInit
    | some s => .ok s)
  joinNLoop E sep ps st

/-- `vt_str_pop_get_first`, str.c:1084-1128: the returned string and the new `s`. -/
def popGetFirst (E : Env) (sr : Option Arr) (s : Arr) (sep : Mem) : Out (Option Arr × Arr) := do
  let n ← strlen sep
  if s.len = 0 ∨ n = 0 then .ok (sr, s) else do
    let t ← strstrAt s.mem 0 sep
    match t with
    | none => .ok (sr, s)
    | some i => do
      let tl ← strlenAt s.mem i
      let copyLen := wsub s.len tl
      if copyLen = 0 then .ok (sr, s) else do
        let spop ← (match sr with
          | none => createLen E copyLen
          | some x => .ok x)
        let spop ← (if spop.len < copyLen then reserve E spop (wsub copyLen spop.len) else .ok spop)
        let spop ← clear spop
        let spop ← appendN E spop s.mem copyLen
        let s ← remove E s 0 (wadd copyLen n)
        .ok (some spop, s)

/-- `vt_str_pop_get_last`, str.c:1130-1186. -/
def popGetLast (E : Env) (fuel : Nat) (sr : Option Arr) (s : Arr) (sep : Mem) :
    Out (Option Arr × Arr) := do
  let n ← strlen sep
  if s.len = 0 ∨ n = 0 then .ok (sr, s) else do
    let t ← strstrAt s.mem 0 sep
    match t with
    | none => .ok (sr, s)
    | some i => do
      let l ← lastInstance s.mem sep n fuel i
      let tl ← strlenAt s.mem l
      let copyLen := wsub tl n
      if copyLen = 0 then .ok (sr, s) else do
        let spop ← (match sr with
          | none => createLen E copyLen
          | some x => .ok x)
        let spop ← (if spop.len < copyLen then reserve E spop (wadd (wsub copyLen spop.len) 1)
          else .ok spop)
        let spop ← clear spop
        let spop ← appendN E spop (s.mem.drop (l + n)) copyLen
        let s ← remove E s (wsub (wsub s.len copyLen) n) (wadd copyLen n)
        .ok (some spop, s)

/-- `vt_str_equals_z`, str.c:1188-1199. -/
def equalsZ (z1 z2 : Mem) : Out Bool := do
  let a ← strlen z1
  let b ← strlen z2
  if a ≠ b then .ok false else strncmpEq a z1 z2

/-- `vt_str_equals_n`, str.c:1201-1210. -/
def equalsN (E : Env) (z1 z2 : Mem) (n : Nat) : Out Bool := do
  dassert E (n > 0)
  let a ← strlen z1
  enforce (n ≤ a)
  let b ← strlen z2
  enforce (n ≤ b)
  strncmpEq n z1 z2

/-- `vt_str_equals`, str.c:1212-1223. -/
def equals (s1 s2 : Arr) : Out Bool :=
  if s1.len ≠ s2.len then .ok false else strncmpEq s1.len s1.mem s2.mem

/-- `vt_str_starts_with`, str.c:1225-1237. -/
def startsWith (s : Arr) (sub : Mem) : Out Bool := do
  let n ← strlen sub
  if n > s.len then .ok false else strncmpEq n s.mem sub

/-- `vt_str_ends_with`, str.c:1239-1252. -/
def endsWith (s : Arr) (sub : Mem) : Out Bool := do
  let n ← strlen sub
  if n > s.len then .ok false else strncmpEq n (s.mem.drop (s.len - n)) sub

/-- The loop of `vt_str_apply` (str.c:1254-1264), `to_uppercase` (str.c:1298-1309) and `to_lowercase`
(str.c:1311-1322) over the `k` characters from `i`; `f` is what happens to the character at each index
(a callback that only rewrites the character it is given). -/
def mapLoop (f : UInt8 → Nat → UInt8) : (k : Nat) → Mem → (i : Nat) → Out Mem
  | 0, m, _ => .ok m
  | k + 1, m, i => do
    let x ← getc m i
    let m ← putc m i (f x i)
    mapLoop f k m (i + 1)

/-- `vt_str_apply`, str.c:1254-1264. -/
def apply (f : UInt8 → Nat → UInt8) (s : Arr) : Out Arr := do
  let m ← mapLoop f s.len s.mem 0
  .ok { s with mem := m }

/-- The loop of `vt_str_apply`, str.c:1260-1263, for a callback with a state of its own: it is given
the character and its index and may rewrite the character.  A callback that reads or writes other bytes
of the string, or calls functions on the string, is modelled in `Model/ApplyAny.lean`. -/
def applyLoop (f : σ → UInt8 → Nat → σ × UInt8) : (k : Nat) → Mem → (i : Nat) → σ → Out (Mem × σ)
  | 0, m, _, st => .ok (m, st)
  | k + 1, m, i, st => do
    let x ← getc m i
    let m ← putc m i (f st x i).2
    applyLoop f k m (i + 1) (f st x i).1

/-- `vt_str_apply`, str.c:1254-1264, with a callback that keeps a state. -/
def applyS (f : σ → UInt8 → Nat → σ × UInt8) (s : Arr) (st : σ) : Out (Arr × σ) := do
  let r ← applyLoop f s.len s.mem 0 st
  .ok ({ s with mem := r.1 }, r.2)

/-- `vt_str_to_uppercase`, str.c:1298-1309. -/
def toUppercase (s : Arr) : Out Arr := apply (fun x _ => toupper x) s

/-- `vt_str_to_lowercase`, str.c:1311-1322. -/
def toLowercase (s : Arr) : Out Arr := apply (fun x _ => tolower x) s

/-- The loop of `vt_str_is_numeric` (str.c:1274-1278) and `vt_str_is_numeric_z` (str.c:1289-1293); 46 is `'.'`. -/
def numericLoop (m : Mem) : (k : Nat) → (i : Nat) → Out Bool
  | 0, _ => .ok true
  | k + 1, i => do
    let x ← getc m i
    if !isdigit x && x != 46 then .ok false else numericLoop m k (i + 1)

/-- `vt_str_is_numeric`, str.c:1266-1281. -/
def isNumeric (s : Arr) : Out Bool := numericLoop s.mem s.len 0

/-- `vt_str_is_numeric_z`, str.c:1283-1296. -/
def isNumericZ (E : Env) (z : Mem) (len : Nat) : Out Bool := do
  dassert E (len > 0)
  numericLoop z len 0

end Str
end Vita
