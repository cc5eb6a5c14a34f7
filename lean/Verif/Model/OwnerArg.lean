import Verif.Model.OwnerLib
import Verif.Model.ArgOpt
/-!
# Parsing of arguments with the containers it creates

`Model/ArgOpt.lean` describes the values an option table ends up with.  Here `vt_argopt_parse` is a program over numbered containers: the two working
strings, and the strings the variables of `VT_TYPE_STR` options point to.  The allocator passed is the tracking allocator or `NULL` (`tracked`).

Simplification: the blocks of `VT_TYPE_CSTR` options are no containers; they are kept as values as in `Model/ArgOpt.lean` (system heap), and
so are all other variables.
-/

namespace Vita.Own
open Prog ArgOpt

/-- The variable `optionValue` points to: a pointer to a string (`none` is NULL), or anything else. -/
inductive AVal
  | str (s : Option Nat)
  | other (v : Val)

/-- `struct VitaArgOpt`, argopt.h:22-31; see `ArgOpt.Opt`. -/
structure AOpt where
  long : Option Mem
  short : Option Mem
  value : Option AVal
  ty : Ty

/-- The element as far as `vt_argopt_validate` and the comparisons of names look at it. -/
def AOpt.names (o : AOpt) : Opt := ⟨o.long, o.short, o.value.map fun _ => .other, o.ty⟩

/-- The `VT_TYPE_STR` case of `vt_argopt_assign_value`, argopt.c:193-205. -/
def assignStr (tracked : Bool) (s : Option Nat) (value : Mem) : Prog Nat :=
  match s with
  | none => make tracked (.str value)
  | some i => do
    call i .clear
    call i (.append value)
    .out (.ok i)

/-- `vt_argopt_assign_value`, argopt.c:140-243. -/
def argAssign (E : Env) (tracked : Bool) (o : AOpt) (value : Mem) : Prog AOpt :=
  match o.value with
  | none => .out .ub
  | some (.str s) =>
    match o.ty with
    | .str => do
      let i ← assignStr tracked s value
      .out (.ok { o with value := some (.str (some i)) })
    | .rest => .out (.ok o)
    | .bad => .out (.ok o)
    | _ => .out .ub
  | some (.other v) =>
    match o.ty with
    | .str => .out .ub
    | ty => do
      let v ← .out (assignValue E ty v value)
      .out (.ok { o with value := some (.other v) })

/-- The inner loop of `vt_argopt_parse`, argopt.c:38-71; see `ArgOpt.tryOpts`. -/
def argTry (E : Env) (tracked : Bool) (sOpt sArg : Nat) (next : Option Mem) : List AOpt → Prog (Bool × List AOpt × Bool)
  | [] => .out (.ok (false, [], false))
  | o :: os => do
    let k ← fields sOpt
    let a ← fields sArg
    if k.len ≠ 0 then do
      let b ← .out (matches_ k.mem o.names)
      if b then do
        let o ← argAssign E tracked o a.mem
        .out (.ok (true, o :: os, false))
      else do
        let (f, os, c) ← argTry E tracked sOpt sArg next os
        .out (.ok (f, o :: os, c))
    else do
      let b ← .out (matches_ a.mem o.names)
      if b then
        match next with
        | some n => do
          let c ← .out (getc n 0)
          if c ≠ 45 then do
            let o ← argAssign E tracked o n
            .out (.ok (true, o :: os, true))
          else do
            let o ← argAssign E tracked o oneZ
            .out (.ok (true, o :: os, false))
        | none => do
          let o ← argAssign E tracked o oneZ
          .out (.ok (true, o :: os, false))
      else do
        let (f, os, c) ← argTry E tracked sOpt sArg next os
        .out (.ok (f, o :: os, c))

/-- The outer loop of `vt_argopt_parse`, argopt.c:30-83; see `ArgOpt.parseLoop`. -/
def argLoop (E : Env) (tracked : Bool) : (skip : Bool) → List Mem → (sArg sOpt : Nat) → List AOpt → Prog (Int × List AOpt × Nat)
  | _, [], _, sOpt, opts => .out (.ok (0, opts, sOpt))
  | true, _ :: rest, sArg, sOpt, opts => argLoop E tracked false rest sArg sOpt opts
  | false, a :: rest, sArg, sOpt, opts => do
    call sArg (.append a)
    let so ← popGetFirst (some sOpt) sArg eqZ
    match so with
    | none => .out .ub
    | some sOpt => do
      let (found, opts, used) ← argTry E tracked sOpt sArg rest.head? opts
      if !found then .out (.ok (-1, opts, sOpt))
      else do
        call sArg .clear
        call sOpt .clear
        argLoop E tracked used rest sArg sOpt opts

/-- `vt_argopt_parse`, argopt.c:6-90; see `ArgOpt.parse`. -/
def argParse (E : Env) (tracked : Bool) (args : List Mem) (opts : List AOpt) : Prog (Int × List AOpt) := do
  let _ ← .out (enforce (opts.length ≥ 1))
  let v ← .out (validate (opts.map AOpt.names))
  if !v then .out (.ok (-1, opts))
  else do
    let h ← .out (helpWanted args)
    if h then .out (.ok (1, opts))
    else do
      let sArg ← make tracked (.strCapacity defaultInit)
      let sOpt ← make tracked (.strCapacity defaultInit)
      let (st, opts, sOpt) ← argLoop E tracked false args sArg sOpt opts
      discard sArg
      discard sOpt
      .out (.ok (st, opts))

end Vita.Own
