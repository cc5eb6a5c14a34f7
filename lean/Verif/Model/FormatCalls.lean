import Verif.Model.Str
/-!
# The calls of the formatter one by one

`Model/Str.lean` takes what the formatter does as the same at each of its calls.  Here each call has its own outcome: the number that it returns, which is negative if it fails, and the bytes that
it writes.
-/

namespace Vita.Str

/-- `vt_str_appendf`, str.c:324-340, with `vt_str_vfmt_append`, str.c:1428-1462: `r` is the result of line 1438, `bs` are the bytes that line 1453 writes, whose result is not looked at. -/
def appendfCalls (E : Env) (s : Arr) (r : Int) (bs : List UInt8) : Out (Arr × Bool) :=
  if r < 0 then .ok (s, false)
  else do
    let len := r.toNat
    let s ← grow E s len
    let m ← writeN s.mem (wmul s.len s.elsize) ((bs.take (len + 1)).map some)
    let m ← putc m (wadd s.len len) 0
    .ok ({ s with mem := m, len := wadd s.len len }, true)

/-- `vt_str_vfmt_set`, str.c:1385-1419: `r` is the result of the `vsnprintf` at line 1395, `bs` are the bytes that line 1410 writes; `none` is the returned NULL.  Adding 1 to `INT_MAX` is undefined. -/
def vfmtSetCalls (E : Env) (s : Arr) (r : Int) (bs : List UInt8) : Out (Option Arr) :=
  if 2 ^ 31 ≤ r + 1 then .ub
  else if r + 1 < 0 then .ok none
  else do
    let len := (r + 1).toNat
    let s ← grow E s len
    let m ← writeN s.mem 0 ((bs.take (len + 1)).map some)
    let m ← putc m len 0
    .ok (some { s with mem := m, len := len })

/-- `vt_str_insertf`, str.c:397-447: `r1` is the result of line 410; a short text is written as `bs1` at line 425 by `vsprintf`, whose result is not looked at; a long one goes through
`vt_str_vfmt_set` with `r2` and `bs2`. -/
def insertfCalls (E : Env) (s : Arr) (at_ : Nat) (r1 : Int) (bs1 : List UInt8) (r2 : Int) (bs2 : List UInt8) : Out (Arr × Bool) :=
  if r1 < 0 then .ok (s, false)
  else if r1 < tmpBufferSize - 1 then do
    let buf ← writeN (List.replicate tmpBufferSize (some 0)) 0 (bs1.map some)
    let s ← insert E s buf at_
    .ok (s, true)
  else do
    let t ← createLen E r1.toNat
    let o ← vfmtSetCalls E t r2 bs2
    match o with
    | none => .ok (s, false)
    | some t => do
      let s ← insert E s t.mem at_
      .ok (s, true)

end Vita.Str
