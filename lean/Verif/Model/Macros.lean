import Verif.Model.Log
/-!
# Model of the macros of core.h, debug.h, log.h and version.h

Token pasting, the version structs of core/version.c and core/compiler.c, and the expansion of the check and log macros into calls of `vt_debug_assert`,
`vt_debug_printf` and `vt_log`.
-/

namespace Vita.Macro

/-- A decimal digit. -/
def digit (c : UInt8) : Bool := 48 ≤ c && c ≤ 57

/-- What may follow in a preprocessing number: digits, letters, underscores and points (ISO C 6.4.8; signs behind an exponent letter are left out). -/
def ppTail (t : List UInt8) : Bool :=
  t.all fun c => digit c || c == 46 || c == 95 || (65 ≤ c && c ≤ 90) || (97 ≤ c && c ≤ 122)

/-- Is the text a preprocessing number, ISO C 6.4.8? -/
def ppNumber : List UInt8 → Bool
  | [] => false
  | 46 :: c :: t => digit c && ppTail t
  | c :: t => digit c && ppTail t

/-- `VT_PCAT(x, y)`, core.h:56 and 60, of a preprocessing number and a point or number: if the result is not a token, the behaviour is undefined (ISO C
6.10.3.3, 3).  The arguments are expanded first, since `VT_PCAT` itself pastes nothing. -/
def pcat (x y : List UInt8) : Out (List UInt8) := if ppNumber (x ++ y) then .ok (x ++ y) else .ub

/-- `VT_VITA_VERSION`, version.h:14, and `VT_COMPILER_VERSION`, compiler.h:48, given the tokens that the three numbers expand to. -/
def versionText (major minor patch : List UInt8) : Out (List UInt8) := do
  let a ← pcat major [46]
  let a ← pcat a minor
  let a ← pcat a [46]
  pcat a patch

/-- `vt_version_t`, version.h:16-19. -/
structure Version where
  major : UInt8
  minor : UInt8
  patch : UInt8
  str : List UInt8
  deriving DecidableEq

/-- `vt_compiler_get_version`, compiler.c:3-12, for a compiler whose version numbers are written in decimal without leading zeros (gcc and clang, compiler.h:20-31). -/
def compilerVersion (major minor patch : Nat) : Out Version := do
  let t ← versionText (Spec.numeral major) (Spec.numeral minor) (Spec.numeral patch)
  .ok ⟨UInt8.ofNat major, UInt8.ofNat minor, UInt8.ofNat patch, t⟩

/-- `vt_version_get`, version.c:3-12, with the numbers of version.h:11-13. -/
def vitaVersion : Out Version := do
  let t ← versionText [48] [53] [48]
  .ok ⟨0, 5, 0, t⟩

/-- libc `strrchr(z, '/')`: the position of the last separator. -/
def lastSlash : List UInt8 → Option Nat
  | [] => none
  | c :: t => match lastSlash t with
    | some i => some (i + 1)
    | none => if c = 47 then some 0 else none

/-- `__SOURCE_FILENAME__`, core.h:42, for the text of `__FILE__`. -/
def sourceFilename (path : List UInt8) : List UInt8 :=
  match lastSlash path with
  | some i => path.drop (i + 1)
  | none => path

/-- What every macro has at its place in the source: the time, `__FILE__`, `__func__`, `__LINE__` and the message formatted from the arguments. -/
structure Site where
  now : List UInt8
  path : List UInt8
  func : List UInt8
  line : Nat
  body : List UInt8

/-- A use of one of the macros of debug.h, with the value and the text of its condition. -/
inductive Use
  | debugAssert (expr : Bool) (text : List UInt8)
  | debugAssertC (expr : Bool) (text file func : List UInt8) (line : Nat)
  | debugPrintf
  | check (expr : Bool) (text : List UInt8)
  | enforce (expr : Bool) (text : List UInt8)
  | note
  | required
  | todo
  | unimplemented

/-- The call of `vt_debug_assert` that the macros expand to. -/
def assertCall (expr : Bool) (text subject : List UInt8) (quit : Bool) (a : Site) : Debug.Call :=
  .check expr quit ⟨a.now, text, subject, sourceFilename a.path, a.func, a.line, a.body⟩

/-- The expansion of the macros, debug.h:29-55; `dbg`: is `NDEBUG` not defined? -/
def expand (dbg : Bool) : Use × Site → List Debug.Call
  | (.debugAssert e t, a) =>
    if dbg then [assertCall e t [68, 69, 66, 85, 71, 32, 65, 83, 83, 69, 82, 84, 73, 79, 78, 32, 70, 65, 73, 76, 85, 82, 69] true a] else []
  | (.debugAssertC e t file func line, a) =>
    if dbg then [.check e true ⟨a.now, t, [68, 69, 66, 85, 71, 32, 65, 83, 83, 69, 82, 84, 73, 79, 78, 32, 70, 65, 73, 76, 85, 82, 69], file, func, line, a.body⟩]
    else []
  | (.debugPrintf, a) => if dbg then [.printf a.now [68, 69, 66, 85, 71, 32, 73, 78, 70, 79] a.body] else []
  | (.check e t, a) => [assertCall e t [67, 72, 69, 67, 75, 32, 70, 65, 73, 76, 85, 82, 69] false a]
  | (.enforce e t, a) => [assertCall e t [69, 78, 70, 79, 82, 67, 69, 32, 70, 65, 73, 76, 85, 82, 69] true a]
  | (.note, a) => [assertCall false [33] [78, 79, 84, 69] false a]
  | (.required, a) => [assertCall false [33] [82, 69, 81, 85, 73, 82, 69, 68] true a]
  | (.todo, a) => [assertCall false [33] [84, 79, 68, 79] true a]
  | (.unimplemented, a) => [assertCall false [33] [85, 78, 73, 77, 80, 76, 69, 77, 69, 78, 84, 69, 68] true a]

/-- A use of one of the macros of log.h. -/
inductive LogUse
  | info
  | warn
  | debug
  | error
  | fatal
  | assert (expr : Bool) (text : List UInt8)

/-- The expansion of the `VT_LOG_…` macros (`z` is `none`), log.h:45-54, and of the `VT_LOGF_…` macros, log.h:58-67.  The two `DEBUG` macros exist only where `NDEBUG` is
not defined (log.h:48-50, 61-63): elsewhere a program that uses them is not translated. -/
def expandLog (z : Option Mem) (a : Site) : LogUse → Log.Call
  | .info => .log z .info false ⟨a.now, none, sourceFilename a.path, a.line, a.body⟩
  | .warn => .log z .warn false ⟨a.now, none, sourceFilename a.path, a.line, a.body⟩
  | .debug => .log z .debug false ⟨a.now, none, sourceFilename a.path, a.line, a.body⟩
  | .error => .log z .error false ⟨a.now, none, sourceFilename a.path, a.line, a.body⟩
  | .fatal => .log z .fatal false ⟨a.now, none, sourceFilename a.path, a.line, a.body⟩
  | .assert e t => .log z .assert e ⟨a.now, some t, sourceFilename a.path, a.line, a.body⟩

end Vita.Macro
