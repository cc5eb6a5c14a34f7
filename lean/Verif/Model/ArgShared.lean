import Verif.Model.ArgOpt
/-!
# Model of src/vita/util/argopt.c with variables that options may share

As Verif/Model/ArgOpt.lean, but `optionValue` is the number of a variable, so that several options can point to the same one.  Options that share a variable
have the same type; a variable is not part of another one.
-/

namespace Vita
namespace ArgOpt

/-- `struct VitaArgOpt`, argopt.h:22-31, with `optionValue` as the number of a variable; `none` is a null pointer. -/
structure ShOpt where
  long : Option Mem
  short : Option Mem
  var : Option Nat
  ty : Ty
  deriving DecidableEq, Repr

/-- The option with the content of its variable. -/
def ShOpt.view (vars : List Val) (o : ShOpt) : Opt := ⟨o.long, o.short, o.var.bind (vars[·]?), o.ty⟩

/-- `vt_argopt_assign_value`, argopt.c:140-243, on the variable of the option. -/
def assignSh (E : Env) (vars : List Val) (o : ShOpt) (value : Mem) : Out (List Val) :=
  match o.var with
  | none => .ub
  | some k =>
    match vars[k]? with
    | none => .ub
    | some v => do
      let v ← assignValue E o.ty v value
      .ok (vars.set k v)

/-- The inner loop of `vt_argopt_parse`, argopt.c:38-71: whether the argument was recognised, the variables, whether the next argument was consumed. -/
def tryOptsSh (E : Env) (sOpt sArg : Arr) (next : Option Mem) (vars : List Val) : List ShOpt → Out (Bool × List Val × Bool)
  | [] => .ok (false, vars, false)
  | o :: os =>
    if sOpt.len ≠ 0 then do
      let b ← matches_ sOpt.mem (o.view vars)
      if b then do
        let vars ← assignSh E vars o sArg.mem
        .ok (true, vars, false)
      else tryOptsSh E sOpt sArg next vars os
    else do
      let b ← matches_ sArg.mem (o.view vars)
      if b then
        match next with
        | some n => do
          let c ← getc n 0
          if c ≠ 45 then do
            let vars ← assignSh E vars o n
            .ok (true, vars, true)
          else do
            let vars ← assignSh E vars o oneZ
            .ok (true, vars, false)
        | none => do
          let vars ← assignSh E vars o oneZ
          .ok (true, vars, false)
      else tryOptsSh E sOpt sArg next vars os

/-- The outer loop of `vt_argopt_parse`, argopt.c:30-83. -/
def parseLoopSh (E : Env) (opts : List ShOpt) : (skip : Bool) → List Mem → Arr → Arr → List Val → Out (Int × List Val)
  | _, [], _, _, vars => .ok (0, vars)
  | true, _ :: rest, sArg, sOpt, vars => parseLoopSh E opts false rest sArg sOpt vars
  | false, a :: rest, sArg, sOpt, vars => do
    let sArg ← Str.append E sArg a
    let (so, sArg) ← Str.popGetFirst E (some sOpt) sArg eqZ
    match so with
    | none => .ub
    | some sOpt => do
      let (found, vars, used) ← tryOptsSh E sOpt sArg rest.head? vars opts
      if !found then .ok (-1, vars)
      else do
        let sArg ← Str.clear sArg
        let sOpt ← Str.clear sOpt
        parseLoopSh E opts used rest sArg sOpt vars

/-- `vt_argopt_parse`, argopt.c:6-90: the status and the variables. -/
def parseSh (E : Env) (args : List Mem) (opts : List ShOpt) (vars : List Val) : Out (Int × List Val) := do
  enforce (opts.length ≥ 1)
  let v ← validate (opts.map (·.view vars))
  if !v then .ok (-1, vars)
  else do
    let h ← helpWanted args
    if h then .ok (1, vars)
    else do
      let sArg ← Str.createCapacity E defaultInit
      let sOpt ← Str.createCapacity E defaultInit
      parseLoopSh E opts false args sArg sOpt vars

end ArgOpt
end Vita
