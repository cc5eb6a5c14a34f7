import Verif.Spec.VaList
import Verif.Model.Str
/-!
# What the variadic functions do with their arguments

For each of them the events between entry and return.  List 0 is `args` of the function itself, list 1 its `args2`, list 2 `args2` of the function it calls.
Which way a function takes is decided by the conditions given; `c` is the number of arguments that the format asks for.
-/

namespace Vita.VaList
open Spec VaEvent

/-- `vt_log`, log.c:34-75: `expr` is the condition, `opens` tells whether the file can be opened (or none is needed). -/
def log (expr opens : Bool) (c : Nat) : List VaEvent :=
  if expr then [ret 0]
  else if opens then [start 0, give 0 c, end_ 0, ret 0]
  else [start 0, ret 0]

/-- `vt_debug_assert`, debug.c:7-45; `on` tells whether output is on.  If the file cannot be opened, `stderr` is used.  The program ends or the function returns. -/
def debugAssert (expr on quits : Bool) (c : Nat) : List VaEvent :=
  if expr then [ret 0]
  else start 0 :: (if on then [give 0 c] else []) ++ end_ 0 :: if quits then [] else [ret 0]

/-- `vt_debug_printf`, debug.c:47-72. -/
def debugPrintf (on : Bool) (c : Nat) : List VaEvent := start 0 :: (if on then [give 0 c] else []) ++ [end_ 0, ret 0]

/-- `vt_file_writef`, fileio.c:198-220, `vt_file_writefln`, fileio.c:222-247, and `vt_file_writefc`, fileio.c:249-276. -/
def fileWritef (opens : Bool) (c : Nat) : List VaEvent := if opens then [start 0, give 0 c, end_ 0, ret 0] else [ret 0]

/-- The loops of `vt_path_build_n`, path.c:10-16, and `vt_str_join_n`, str.c:1064-1079, with `n` the number passed as argument. -/
def readArgs (n : Nat) : List VaEvent := start 0 :: List.replicate n (arg 0) ++ [end_ 0, ret 0]

/-- `vt_str_vfmt_set`, str.c:1385-1419, and `vt_str_vfmt_append`, str.c:1428-1462, given the list `a`: `r` is the length that is compared with 0, that is the result of the first
`vsnprintf`, in `vt_str_vfmt_set` plus 1. -/
def vfmt (a own : Nat) (r : Int) (c : Nat) : List VaEvent :=
  if r < 0 then [copy own a, give a c, end_ own, ret own] else [copy own a, give a c, give own c, end_ own, ret own]

/-- `vt_str_appendf`, str.c:324-340: `r` is the result of `vsnprintf` at line 1438. -/
def appendf (r : Int) (c : Nat) : List VaEvent := start 0 :: vfmt 0 2 r c ++ if r < 0 then [ret 0] else [end_ 0, ret 0]

/-- `vt_str_insertf`, str.c:397-447: `r` is the result of `vsnprintf` at line 410, `r'` the one at line 1395. -/
def insertf (r r' : Int) (c : Nat) : List VaEvent :=
  [start 0, copy 1 0, give 1 c, end_ 1, ret 1] ++
    if r < 0 then [ret 0]
    else if r < tmpBufferSize - 1 then [give 0 c, end_ 0, ret 0]
    else vfmt 0 2 (r' + 1) c ++ if r' + 1 < 0 then [ret 0] else [end_ 0, ret 0]

end Vita.VaList
