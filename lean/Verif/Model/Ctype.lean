import Verif.Model.ConvFloat
import Verif.Model.DateTime
/-!
# The functions of str.c, conv.c and datetime.c that call `isspace`, `ispunct`, `isdigit`, `toupper`, `tolower`

The other models of these functions let the functions of ctype.h answer for every byte, as the C libraries in use do.  Here their precondition (C11 7.4 §1) is
checked: the argument is an `int` that is the value of an `unsigned char` or `EOF`; anything else is undefined.  The library passes plain `char` values.
`sg` says whether `char` is signed, as on x86; `EOF` is -1.
-/

namespace Vita
namespace Ctype

/-- The `int` to which a `char` with the bits `c` is converted when it is passed. -/
def arg (sg : Bool) (c : UInt8) : Int := if sg && 128 ≤ c then (c.toNat : Int) - 256 else c.toNat

/-- The precondition of the functions of ctype.h. -/
def check (sg : Bool) (c : UInt8) : Out Unit := if -1 ≤ arg sg c ∧ arg sg c ≤ 255 then .ok () else .ub

/-- The leading loop of the strip functions, str.c:781-784, 815-818. -/
def stripFront (sg : Bool) (p : UInt8 → Bool) (m : Mem) : (fuel : Nat) → (offset : Nat) → Out Nat
  | 0, _ => .fuel
  | fuel + 1, offset => do
    let x ← getc m offset
    check sg x
    if p x then stripFront sg p m fuel (offset + 1) else .ok offset

/-- The trailing loop of the strip functions, str.c:790-794, 824-828. -/
def stripBack (sg : Bool) (p : UInt8 → Bool) (m : Mem) (offset : Nat) : (fuel : Nat) → (len : Nat) → Out Nat
  | 0, _ => .fuel
  | fuel + 1, len => do
    let x ← getc m (wsub (wadd len offset) 1)
    check sg x
    if p x then stripBack sg p m offset fuel (wsub len 1) else .ok len

/-- The common body of `strip` and `strip_punct`, str.c:769-835. -/
def stripBy (sg : Bool) (p : UInt8 → Bool) (fuel : Nat) (s : Arr) : Out Arr := do
  let offset ← stripFront sg p s.mem fuel 0
  let len ← stripBack sg p s.mem offset fuel (wsub s.len offset)
  let m ← vtMemmove s.mem 0 offset len
  let m ← putc m len 0
  .ok { s with mem := m, len := len }

/-- `vt_str_strip`, str.c:769-801. -/
def strip (sg : Bool) (fuel : Nat) (s : Arr) : Out Arr := stripBy sg isspace fuel s

/-- `vt_str_strip_punct`, str.c:803-835. -/
def stripPunct (sg : Bool) (fuel : Nat) (s : Arr) : Out Arr := stripBy sg (fun x => isspace x || ispunct x) fuel s

/-- The loop of `vt_str_to_uppercase` (str.c:1306-1308) and `vt_str_to_lowercase` (str.c:1319-1321). -/
def mapLoop (sg : Bool) (f : UInt8 → UInt8) : (k : Nat) → Mem → (i : Nat) → Out Mem
  | 0, m, _ => .ok m
  | k + 1, m, i => do
    let x ← getc m i
    check sg x
    let m ← putc m i (f x)
    mapLoop sg f k m (i + 1)

/-- `vt_str_to_uppercase`, str.c:1298-1309. -/
def toUppercase (sg : Bool) (s : Arr) : Out Arr := do
  let m ← mapLoop sg toupper s.len s.mem 0
  .ok { s with mem := m }

/-- `vt_str_to_lowercase`, str.c:1311-1322. -/
def toLowercase (sg : Bool) (s : Arr) : Out Arr := do
  let m ← mapLoop sg tolower s.len s.mem 0
  .ok { s with mem := m }

/-- The loop of `vt_str_is_numeric` (str.c:1274-1278) and `vt_str_is_numeric_z` (str.c:1289-1293). -/
def numericLoop (sg : Bool) (m : Mem) : (k : Nat) → (i : Nat) → Out Bool
  | 0, _ => .ok true
  | k + 1, i => do
    let x ← getc m i
    check sg x
    if !isdigit x && x != 46 then .ok false else numericLoop sg m k (i + 1)

/-- `vt_str_is_numeric`, str.c:1266-1281. -/
def isNumeric (sg : Bool) (s : Arr) : Out Bool := numericLoop sg s.mem s.len 0

/-- `vt_str_is_numeric_z`, str.c:1283-1296. -/
def isNumericZ (E : Env) (sg : Bool) (z : Mem) (len : Nat) : Out Bool := do
  dassert E (len > 0)
  numericLoop sg z len 0

/-- `vt_conv_str_to_T` for the integer types, conv.c:7-22. -/
def strToT (sg : Bool) (T : Conv.IntTy) (z : Mem) : Out Int := do
  let s ← Str.createStatic z
  let num ← isNumeric sg s
  if !num then .ok 0
  else do
    let t ← scanZ z
    .ok (Conv.castTo T (if T.signed then Conv.strtol t else Conv.strtoul t))

/-- `vt_conv_str_to_f`, `_d` and `_r`, conv.c:7-22. -/
def strToF (sg : Bool) (f : Spec.Fmt) (z : Mem) : Out Conv.FNum := do
  let s ← Str.createStatic z
  let num ← isNumeric sg s
  if !num then .ok (.fin false 0)
  else do
    let t ← scanZ z
    .ok (Conv.strtod f t)

/-- The loop of `vt_datetime_is_valid_fmt`, datetime.c:396-400; the formats are texts of ASCII characters. -/
def validLoop (sg : Bool) (z : Mem) : List UInt8 → Nat → Out Bool
  | [], _ => .ok true
  | f :: fs, i =>
    if f ≠ 84 ∧ DT.isAlpha f = true then do
      let c ← getc z i
      check sg c
      if !DT.isDigit c then .ok false else validLoop sg z fs (i + 1)
    else validLoop sg z fs (i + 1)

/-- `vt_datetime_is_valid_text`, datetime.c:205-211. -/
def isValidText (sg : Bool) (z : Mem) : Out Bool := validLoop sg z DT.vText 0
/-- `vt_datetime_is_valid_text_iso`, datetime.c:213-219. -/
def isValidIso (sg : Bool) (z : Mem) : Out Bool := validLoop sg z DT.vIso 0
/-- `vt_datetime_is_valid_text_iso_ext`, datetime.c:221-227. -/
def isValidIsoExt (sg : Bool) (z : Mem) : Out Bool := validLoop sg z DT.vIsoExt 0

end Ctype
end Vita
