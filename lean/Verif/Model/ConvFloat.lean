import Verif.Spec.Float
import Verif.Model.Conv
/-!
# Model of src/vita/core/conv.c (floating point types)

The `float`, `double` and `long double` instances of the two macros.  `real` is `long double`, on x86-64 Linux the 80-bit extended format.  The conversions of the C
library round to nearest, ties to even, as glibc does in the default rounding mode.
-/

namespace Vita
namespace Conv
open Spec

/-- The formats of conv.c:31-33 and conv.c:54-56: `float`, `double`, `long double`. -/
def floatTys : List Fmt := [binary32, binary64, ⟨63, -16445, 16384⟩]

/-- A floating point number: sign and magnitude, an infinity, or not a number.  The two zeros are different here. -/
inductive FNum
  | fin (neg : Bool) (mag : ℚ)
  | inf (neg : Bool)
  | nan (neg : Bool)
  deriving DecidableEq, Repr

/-- The digits at the beginning of the text. -/
def leadDigits (t : List UInt8) : List UInt8 := t.takeWhile isdigit

/-- libc `strtof`, `strtod`, `strtold` (called at conv.c:3-5 without end pointer) for a text of digits and dots: digits, then perhaps a dot and more digits; the exact
value is rounded once, and becomes infinite if it is too large.  Without any digit the result is zero.  (Signs, exponents, hexadecimal numbers and
names do not occur in such texts.) -/
def strtod (f : Fmt) (t : List UInt8) : FNum :=
  let ip := leadDigits t
  let fp := match t.drop ip.length with
    | 46 :: r => leadDigits r
    | _ => []
  let q : ℚ := (digitsVal 0 (ip ++ fp) : ℚ) / 10 ^ fp.length
  match fl f q with
  | some x => .fin false x
  | none => .inf false

/-- `vt_conv_str_to_f`, `_d` and `_r`, conv.c:7-22 with conv.c:3-5 and 31-33.  The message is not modelled. -/
def strToF (f : Fmt) (z : Mem) : Out FNum := do
  let s ← Str.createStatic z
  let num ← Str.isNumeric s
  if !num then .ok (.fin false 0)
  else do
    let t ← scanZ z
    .ok (strtod f t)

/-- At least `k` decimal digits of a number, most significant first; more if needed (`fuel` bounds their number). -/
def printPad : (fuel k n : Nat) → List UInt8
  | 0, _, _ => []
  | fuel + 1, k, n =>
    if k = 0 ∧ n = 0 then [] else printPad fuel (k - 1) (n / 10) ++ [UInt8.ofNat (48 + n % 10)]

/-- `printf("%f")`, with `l` or `L` for the wider types: the magnitude rounded to six decimals, at least one digit before the dot. -/
def printF : FNum → List UInt8
  | .fin neg x =>
    let n := (roundEven (x * 10 ^ 6)).toNat
    (if neg then [45] else []) ++ printPad (n + 1) 1 (n / 10 ^ 6) ++ [46] ++ printPad 6 6 (n % 10 ^ 6)
  | .inf neg => (if neg then [45] else []) ++ [105, 110, 102]
  | .nan neg => (if neg then [45] else []) ++ [110, 97, 110]

/-- `vt_conv_f_to_str`, `_d_` and `_r_`, conv.c:36-45 and 54-56: `buf` is the memory at the pointer passed, `bufLen` the length passed. -/
def fToStr (buf : Mem) (bufLen : Nat) (v : FNum) : Out Mem := do
  let t := printF v
  let required := wadd t.length 1
  enforce (bufLen ≥ required)
  let m ← writeN buf 0 (t.map some ++ [some 0])
  enforce (t.length == wsub required 1)
  .ok m

end Conv
end Vita
