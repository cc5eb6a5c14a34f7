import Verif.Model.Log
/-!
# Model of src/vita/util/log.c for arbitrary level codes

The level is an argument of an enumeration type, which in C takes any value of the underlying type (`unsigned int` here).  `Verif/Model/Log.lean` has the
functions for the six enumerators; here they are given any number.  The tables have one entry per enumerator (log.c:4-6 and 11), so that reading or
writing an entry beyond the sixth is undefined (ISO C 6.5.6, 8).
-/

namespace Vita.Log
open Fs

/-- The entries of the tables `vt_log_level_strings`, log.c:4-6, and `vt_log_filenames`, log.c:11, in the order of `enum VitaLogLevel`, log.h:33-41. -/
def table : List Level := [.info, .warn, .debug, .error, .fatal, .assert]

/-- Indexing one of the tables. -/
def entry (n : Nat) : Out Level :=
  match table[n]? with
  | none => .ub
  | some l => .ok l

/-- `vt_log_redirect_level_output`, log.c:13-19, for any level number; `vt_log_count` is 6 (log.h:40). -/
def redirectCode (E : Env) (s : St) (n : Nat) (z : Option Mem) : Out St := do
  dassert E (decide (n < 6))
  let l ← entry n
  redirectLevel s l z

/-- `vt_log_get_level_str`, log.c:27-32, for any level number. -/
def levelStrCode (E : Env) (n : Nat) : Out (List UInt8) := do
  dassert E (decide (n < 6))
  let l ← entry n
  .ok l.str

/-- `vt_log`, log.c:34-75, for any level number: the table of file names is read only if no file name is given (log.c:44), the table of level names only once
the output is open (log.c:55-59). -/
def logCode (E : Env) (s : St) (z : Option Mem) (n : Nat) (expr : Bool) (m : Msg) : Out (St × Bool) := do
  dassert E (decide (n < 6))
  if !expr then
    let name ← match z with
      | none => do
        let l ← entry n
        .ok (s.names l)
      | some z => .ok z
    let t ← scanZ name
    if t = [] then do
      let l ← entry n
      .ok ({ s with err := s.err ++ text l m }, decide (n = 4 ∨ n = 5))
    else match openW s.world true t with
      | none => if E.debug then .ub else .ok (s, false)
      | some (w, p) => do
        let l ← entry n
        .ok ({ s with world := put w p (text l m) }, decide (n = 4 ∨ n = 5))
  else .ok (s, false)

end Vita.Log
