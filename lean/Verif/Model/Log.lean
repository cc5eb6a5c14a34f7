import Verif.Model.FileIo
import Verif.Spec.Numeral
/-!
# Model of src/vita/util/log.c and src/vita/util/debug.c

The state of the loggers, with the file system and what has been written to `stderr`.  The time, as formatted by `vt_datetime_get_now_as_text`, and the message,
formatted from its arguments, are inputs.  `dbg` is true in debug builds: there the message about a file that cannot be opened, log.c:50, is formatted with
`%i` for a `size_t`, which is undefined (ISO C 7.21.6.1, 9); in release builds the macro is empty.  Level numbers outside the enumeration are in
`Verif/Model/LogCode.lean`.  The missing `va_end` at log.c:51 is in `Model/VaList.lean`.
-/

namespace Vita.Log
open Fs

/-- `enum VitaLogLevel`, log.h:33-41. -/
inductive Level
  | info | warn | debug | error | fatal | assert
  deriving DecidableEq

/-- `vt_log_level_strings`, log.c:4-6, and `vt_log_get_level_str`, log.c:27-32. -/
def Level.str : Level → List UInt8
  | .info => [73, 78, 70, 79]
  | .warn => [87, 65, 82, 78]
  | .debug => [68, 69, 66, 85, 71]
  | .error => [69, 82, 82, 79, 82]
  | .fatal => [70, 65, 84, 65, 76]
  | .assert => [65, 83, 83, 69, 82, 84, 32, 70, 65, 73, 76, 85, 82, 69]

/-- `PATH_MAX`. -/
def pathMax : Nat := 4096

/-- libc `strncpy(dst, src, n)`. -/
def strncpy (dst src : Mem) (n : Nat) : Out Mem := do
  let k ← strnlen src n
  let bs ← readN src 0 k
  writeN dst 0 (bs ++ List.replicate (n - k) (some 0))

/-- `vt_log_filenames`, log.c:11, the file system and the output on `stderr`. -/
structure St where
  names : Level → Mem
  world : World
  err : List UInt8

/-- The file names at the start of the program: static storage is zero. -/
def initNames : Level → Mem := fun _ => List.replicate pathMax (some 0)

/-- The string literal "\0". -/
def emptyZ : Mem := [some 0, some 0]

/-- `vt_log_redirect_level_output`, log.c:13-19; `none` is NULL. -/
def redirectLevel (s : St) (l : Level) (z : Option Mem) : Out St := do
  let m ← strncpy (s.names l) (z.getD emptyZ) (pathMax - 1)
  .ok { s with names := fun l' => if l' = l then m else s.names l' }

/-- The loop of `vt_log_redirect_all_output`. -/
def redirectLoop (z : Option Mem) : List Level → St → Out St
  | [], s => .ok s
  | l :: ls, s => do
    let m ← strncpy (s.names l) (z.getD emptyZ) (pathMax - 1)
    redirectLoop z ls { s with names := fun l' => if l' = l then m else s.names l' }

/-- `vt_log_redirect_all_output`, log.c:21-25. -/
def redirectAll (s : St) (z : Option Mem) : Out St := redirectLoop z [.info, .warn, .debug, .error, .fatal, .assert] s

/-- What a log call is given besides level and condition: the time, the text of the condition, the place in the source, and the message. -/
structure Msg where
  now : List UInt8
  zexpr : Option (List UInt8)
  file : List UInt8
  line : Nat
  body : List UInt8

/-- The output of `"%5s"`. -/
def pad5 (t : List UInt8) : List UInt8 := List.replicate (5 - t.length) 32 ++ t

/-- What is written, log.c:54-63. -/
def text (l : Level) (m : Msg) : List UInt8 :=
  (match m.zexpr with
    | none => m.now ++ [32] ++ pad5 l.str ++ [32] ++ m.file ++ [58] ++ Spec.numeral m.line ++ [58, 32]
    | some e => m.now ++ [32] ++ pad5 l.str ++ [32, 91] ++ e ++ [93, 32] ++ m.file ++ [58] ++ Spec.numeral m.line ++ [58, 32]) ++
  m.body ++ [10]

/-- `vt_log`, log.c:34-75.  The flag tells whether the program has been terminated by `exit`. -/
def log (dbg : Bool) (s : St) (z : Option Mem) (l : Level) (expr : Bool) (m : Msg) : Out (St × Bool) :=
  if !expr then do
    let t ← scanZ (z.getD (s.names l))
    if t = [] then .ok ({ s with err := s.err ++ text l m }, decide (l = .fatal ∨ l = .assert))
    else match openW s.world true t with
      | none => if dbg then .ub else .ok (s, false)
      | some (w, p) => .ok ({ s with world := put w p (text l m) }, decide (l = .fatal ∨ l = .assert))
  else .ok (s, false)

/-- The calls of the module. -/
inductive Call
  | level (l : Level) (z : Option Mem)
  | all (z : Option Mem)
  | log (z : Option Mem) (l : Level) (expr : Bool) (m : Msg)

/-- One call. -/
def run1 (dbg : Bool) (s : St) : Call → Out (St × Bool)
  | .level l z => do
    let s ← redirectLevel s l z
    .ok (s, false)
  | .all z => do
    let s ← redirectAll s z
    .ok (s, false)
  | .log z l e m => log dbg s z l e m

/-- Calls one after the other, until the program is terminated. -/
def run (dbg : Bool) (s : St) : List Call → Out (St × Bool)
  | [] => .ok (s, false)
  | c :: cs => do
    let r ← run1 dbg s c
    if r.2 then .ok r else run dbg r.1 cs

end Vita.Log

namespace Vita.Debug
open Fs

/-- `vt_debug_output_on` and `vt_debug_output_filename`, debug.c:4-5 (the pointer is kept, not the text; here it always points to a valid string), the file
system, the output on `stderr` and whether `stderr` is still open. -/
structure St where
  on : Bool := true
  filename : Option Mem := none
  world : World
  err : List UInt8 := []
  errOpen : Bool := true

/-- Writing to `stderr`; undefined after `fclose(stderr)`. -/
def toErr (s : St) (t : List UInt8) : Out St := if s.errOpen then .ok { s with err := s.err ++ t } else .ub

/-- Opening the output, writing `t`, closing it: debug.c:26-38 and 58-69. -/
def emit (s : St) (t : List UInt8) : Out St :=
  if s.on then
    match s.filename with
    | none => toErr s t
    | some z => do
      let n ← scanZ z
      match openW s.world true n with
      | none => do
        let s ← toErr s t
        .ok { s with errOpen := false }
      | some (w, p) => .ok { s with world := put w p t }
  else .ok s

/-- What a check is given: the time, the text of the condition, the subject, the place in the source, and the message. -/
structure Msg where
  now : List UInt8
  zexpr : List UInt8
  subject : List UInt8
  file : List UInt8
  func : List UInt8
  line : Nat
  body : List UInt8

/-- What `vt_debug_assert` writes, debug.c:32-34. -/
def text (m : Msg) : List UInt8 :=
  m.now ++ [32] ++ m.subject ++ [32, 91] ++ m.zexpr ++ [93, 32] ++ m.file ++ [58] ++ m.func ++ [58] ++ Spec.numeral m.line ++ [58, 32] ++ m.body ++ [10]

/-- `vt_debug_assert`, debug.c:7-45.  The flag tells whether the program has been terminated by `exit`. -/
def check (s : St) (expr quit : Bool) (m : Msg) : Out (St × Bool) :=
  if !expr then do
    let s ← emit s (text m)
    .ok (s, quit)
  else .ok (s, false)

/-- `vt_debug_printf`, debug.c:47-72. -/
def printf (s : St) (now subject body : List UInt8) : Out St := emit s (now ++ [32] ++ subject ++ [32] ++ body)

/-- `vt_debug_redirect_output`, debug.c:74-76. -/
def redirect (s : St) (z : Option Mem) : St := { s with filename := z }

/-- `vt_debug_disable_output`, debug.c:78-80. -/
def disable (s : St) (off : Bool) : St := { s with on := !off }

/-- The calls of the module. -/
inductive Call
  | redirect (z : Option Mem)
  | disable (off : Bool)
  | check (expr quit : Bool) (m : Msg)
  | printf (now subject body : List UInt8)

/-- One call. -/
def run1 (s : St) : Call → Out (St × Bool)
  | .redirect z => .ok (redirect s z, false)
  | .disable off => .ok (disable s off, false)
  | .check e q m => check s e q m
  | .printf n sub b => do
    let s ← printf s n sub b
    .ok (s, false)

/-- Calls one after the other, until the program is terminated. -/
def run (s : St) : List Call → Out (St × Bool)
  | [] => .ok (s, false)
  | c :: cs => do
    let r ← run1 s c
    if r.2 then .ok r else run r.1 cs

end Vita.Debug
