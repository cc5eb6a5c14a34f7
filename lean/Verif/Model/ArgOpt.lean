import Verif.Model.ConvFloat
import Verif.Model.Small
/-!
# Model of src/vita/util/argopt.c

The allocator argument is `NULL` (the branches `alloctr ? … : …` at lines 215-217 and 227-229 take the second
alternative; the string functions already abstract from the allocator).  Messages are not modelled.  Each option has its own variable
(Verif/Model/ArgShared.lean has options that share variables).
-/

namespace Vita
namespace ArgOpt

/-- The variable `optionValue` points to.  `str none` and `cstr none` are null pointers; `cstr (some m)` is a heap block. -/
inductive Val
  | int (v : Int)
  | flt (v : Conv.FNum)
  | bool (b : Bool)
  | char (c : UInt8)
  | str (s : Option Arr)
  | cstr (m : Option Mem)
  | other
  deriving DecidableEq, Repr

/-- `enum VitaTypeInfo`, inc/vita/core/core.h:74-104; `bad` is a value that is not below `VT_TYPE_COUNT`, `rest` one of the types that
`vt_argopt_assign_value` does not handle (vec, plist, span, hashmap, unknown). -/
inductive Ty
  | int (T : Conv.IntTy)
  | flt (f : Spec.Fmt)
  | bool
  | char
  | cstr
  | str
  | rest
  | bad
  deriving DecidableEq, Repr

/-- `struct VitaArgOpt`, argopt.h:22-31.  `none` is a null pointer; the description is not modelled. -/
structure Opt where
  long : Option Mem
  short : Option Mem
  value : Option Val
  ty : Ty
  deriving DecidableEq, Repr

/-- `vt_argopt_validate`, argopt.c:124-138. -/
def validate : List Opt → Out Bool
  | [] => .ok true
  | o :: os =>
    match o.long, o.short, o.value with
    | some _, some sh, some _ => do
      let n ← strnlen sh 4
      if n > 3 then .ok false
      else if o.ty = .bad then .ok false
      else validate os
    | _, _, _ => .ok false

/-- "true" -/
def trueZ : Mem := [some 116, some 114, some 117, some 101, some 0]
/-- "1" -/
def oneZ : Mem := [some 49, some 0]
/-- "=" -/
def eqZ : Mem := [some 61, some 0]
/-- "-h" -/
def hZ : Mem := [some 45, some 104, some 0]
/-- "--help" -/
def helpZ : Mem := [some 45, some 45, some 104, some 101, some 108, some 112, some 0]

/-- The `VT_TYPE_CSTR` case of `vt_argopt_assign_value`, argopt.c:206-239.  `strncat` onto the empty text of a fresh zeroed block is a copy of
the text and its terminator. -/
def assignCstr (E : Env) (old : Option Mem) (value : Mem) : Out Mem :=
  match old with
  | none => do
    let len ← strlen value
    let m ← vtCalloc E (wadd len 1)
    let t ← scanZ value
    writeN m 0 (t.map some ++ [some 0])
  | some zv => do
    let len ← strlen value
    let zLen ← strlen zv
    let zv ← if len > zLen then vtRealloc E zv (wsub len zLen) else .ok zv
    memcpyIn zv 0 value len

/-- `vt_argopt_assign_value`, argopt.c:140-243: the new content of the variable.  A variable of another type than declared is undefined for
the two pointer types (the pointer would be followed). -/
def assignValue (E : Env) (ty : Ty) (old : Val) (value : Mem) : Out Val :=
  match ty with
  | .int T => do
    let x ← Conv.strToT T value
    .ok (.int x)
  | .flt f => do
    let x ← Conv.strToF f value
    .ok (.flt x)
  | .bool => do
    let c ← getc value 0
    let b ← if c = 49 then .ok true else Str.equalsZ value trueZ
    .ok (.bool b)
  | .char => do
    let c ← getc value 0
    .ok (.char c)
  | .str =>
    match old with
    | .str none => do
      let s ← Str.create E value
      .ok (.str (some s))
    | .str (some s) => do
      let s ← Str.clear s
      let s ← Str.append E s value
      .ok (.str (some s))
    | _ => .ub
  | .cstr =>
    match old with
    | .cstr m => do
      let m ← assignCstr E m value
      .ok (.cstr (some m))
    | _ => .ub
  | .rest => .ok old
  | .bad => .ok old

/-- `vt_argopt_assign_value` on an element of the table; null pointers do not occur after validation. -/
def assign (E : Env) (o : Opt) (value : Mem) : Out Opt :=
  match o.value with
  | none => .ub
  | some v => do
    let v ← assignValue E o.ty v value
    .ok { o with value := some v }

/-- The condition of lines 50 and 59. -/
def matches_ (z : Mem) (o : Opt) : Out Bool :=
  match o.long, o.short with
  | some l, some s => do
    let b ← Str.equalsZ z l
    if b then .ok true else Str.equalsZ z s
  | _, _ => .ub

/-- The inner loop of `vt_argopt_parse`, argopt.c:38-71: whether the argument was recognised, the table, whether the next argument was
consumed (`next` is `argv[i+1]` if there is one). -/
def tryOpts (E : Env) (sOpt sArg : Arr) (next : Option Mem) : List Opt → Out (Bool × List Opt × Bool)
  | [] => .ok (false, [], false)
  | o :: os =>
    if sOpt.len ≠ 0 then do
      let b ← matches_ sOpt.mem o
      if b then do
        let o ← assign E o sArg.mem
        .ok (true, o :: os, false)
      else do
        let (f, os, c) ← tryOpts E sOpt sArg next os
        .ok (f, o :: os, c)
    else do
      let b ← matches_ sArg.mem o
      if b then
        match next with
        | some n => do
          let c ← getc n 0
          if c ≠ 45 then do
            let o ← assign E o n
            .ok (true, o :: os, true)
          else do
            let o ← assign E o oneZ
            .ok (true, o :: os, false)
        | none => do
          let o ← assign E o oneZ
          .ok (true, o :: os, false)
      else do
        let (f, os, c) ← tryOpts E sOpt sArg next os
        .ok (f, o :: os, c)

/-- The outer loop of `vt_argopt_parse`, argopt.c:30-83, over the arguments from `i` on; `skip` is true if the first one was consumed already.
The result is the status and the table. -/
def parseLoop (E : Env) : (skip : Bool) → List Mem → Arr → Arr → List Opt → Out (Int × List Opt)
  | _, [], _, _, opts => .ok (0, opts)
  | true, _ :: rest, sArg, sOpt, opts => parseLoop E false rest sArg sOpt opts
  | false, a :: rest, sArg, sOpt, opts => do
    let sArg ← Str.append E sArg a
    let (so, sArg) ← Str.popGetFirst E (some sOpt) sArg eqZ
    match so with
    | none => .ub
    | some sOpt => do
      let (found, opts, used) ← tryOpts E sOpt sArg rest.head? opts
      if !found then .ok (-1, opts)
      else do
        let sArg ← Str.clear sArg
        let sOpt ← Str.clear sOpt
        parseLoop E used rest sArg sOpt opts

/-- The help test, argopt.c:22. -/
def helpWanted (args : List Mem) : Out Bool :=
  match args with
  | [a] => do
    let c ← getc a 0
    if c = 63 then .ok true
    else do
      let b ← Str.equalsZ a hZ
      if b then .ok true else Str.equalsZ a helpZ
  | _ => .ok false

/-- `vt_argopt_parse`, argopt.c:6-90.  `args` is `argv` without the program name (`argc ≥ 1` holds); the status is 0, 1 (help) or -1. -/
def parse (E : Env) (args : List Mem) (opts : List Opt) : Out (Int × List Opt) := do
  enforce (opts.length ≥ 1)
  let v ← validate opts
  if !v then .ok (-1, opts)
  else do
    let h ← helpWanted args
    if h then .ok (1, opts)
    else do
      let sArg ← Str.createCapacity E defaultInit
      let sOpt ← Str.createCapacity E defaultInit
      parseLoop E false args sArg sOpt opts

/-- The part of `struct VitaArgOpt` that the help shows. -/
structure HelpOpt where
  long : Mem
  short : Mem
  desc : Mem

/-- The cast `(int32_t)` of a length. -/
def toI32 (n : Nat) : Int := Conv.castTo ⟨true, 32⟩ n

/-- Lines 97-103: the widths of the two columns, short names first. -/
def widths : (os ol : Int) → List HelpOpt → Out (Int × Int)
  | os, ol, [] => .ok (os, ol)
  | os, ol, o :: rest => do
    let l ← strlen o.long
    let s ← strlen o.short
    widths (Cmp.max (toI32 s) os) (Cmp.max (toI32 l) ol) rest

/-- `printf("%*s", w, t)`: blanks on the left, on the right if the width is negative. -/
def padded (w : Int) (t : List UInt8) : List UInt8 :=
  if w < 0 then t ++ List.replicate (w.natAbs - t.length) 32 else List.replicate (w.natAbs - t.length) 32 ++ t

/-- Lines 111-113: one line for each option. -/
def helpLines (os ol : Int) : List HelpOpt → Out (List UInt8)
  | [] => .ok []
  | o :: rest => do
    let s ← scanZ o.short
    let l ← scanZ o.long
    let d ← scanZ o.desc
    let r ← helpLines os ol rest
    .ok (padded os s ++ [32] ++ padded ol l ++ [32] ++ d ++ [10] ++ r)

/-- "This help information." -/
def helpDesc : List UInt8 :=
  [84, 104, 105, 115, 32, 104, 101, 108, 112, 32, 105, 110, 102, 111, 114, 109, 97, 116, 105, 111, 110, 46]

/-- `fprintf(stdout, "%s\n", z)` unless `z` is null. -/
def optLine : Option Mem → Out (List UInt8)
  | none => .ok []
  | some z => do
    let t ← scanZ z
    .ok (t ++ [10])

/-- `vt_argopt_print_help`, argopt.c:92-120: what is written to `stdout`. -/
def printHelp (header footer : Option Mem) (opts : List HelpOpt) : Out (List UInt8) := do
  enforce (opts.length ≥ 1)
  let (os, ol) ← widths 2 6 opts
  let h ← optLine header
  let b ← helpLines os ol opts
  let f ← optLine footer
  .ok (h ++ b ++ (padded os [45, 104] ++ [32] ++ padded ol [45, 45, 104, 101, 108, 112] ++ [32] ++ helpDesc ++ [10]) ++ f)

end ArgOpt
end Vita
