import Verif.Model.Str
/-!
# Model of src/vita/core/conv.c (integer types)

The `float`, `double` and `long double` instances of the two macros are in `Verif.Model.ConvFloat`.
-/

namespace Vita
namespace Conv

/-- An integer type of conv.c:23-30 and conv.c:46-53. -/
structure IntTy where
  signed : Bool
  bits : Nat
  deriving DecidableEq, Repr

/-- The eight integer types of conv.c:23-30. -/
def intTys : List IntTy :=
  [⟨true, 8⟩, ⟨false, 8⟩, ⟨true, 16⟩, ⟨false, 16⟩, ⟨true, 32⟩, ⟨false, 32⟩, ⟨true, 64⟩, ⟨false, 64⟩]

/-- Conversion to the type: modulo `2^bits` (for signed types ISO C leaves that to the implementation; all
compilers in use reduce modulo `2^bits`). -/
def castTo (T : IntTy) (x : Int) : Int :=
  let r := x % 2 ^ T.bits
  if T.signed && 2 ^ (T.bits - 1) ≤ r then r - 2 ^ T.bits else r

/-- The value of the digits at the beginning of the text (`acc` holds the digits already read). -/
def digitsVal : (acc : Nat) → List UInt8 → Nat
  | acc, [] => acc
  | acc, c :: t => if isdigit c then digitsVal (10 * acc + (c.toNat - 48)) t else acc

/-- The subject sequence of `strtol` and its relatives, base 10: white space, an optional sign, digits.  True means a
minus sign was seen. -/
def subject (t : List UInt8) : Bool × Nat :=
  match t.dropWhile isspace with
  | 45 :: r => (true, digitsVal 0 r)
  | 43 :: r => (false, digitsVal 0 r)
  | r => (false, digitsVal 0 r)

/-- libc `strtol`, `strtoll` (64 bit): saturating. -/
def strtol (t : List UInt8) : Int :=
  let (neg, n) := subject t
  let v : Int := if neg then -n else n
  if v < -2 ^ 63 then -2 ^ 63 else if 2 ^ 63 ≤ v then 2 ^ 63 - 1 else v

/-- libc `strtoul`, `strtoull` (64 bit): saturating; a minus sign negates the result in the unsigned type. -/
def strtoul (t : List UInt8) : Int :=
  let (neg, n) := subject t
  if 2 ^ 64 ≤ n then 2 ^ 64 - 1 else if neg then (-(n : Int)) % 2 ^ 64 else n

/-- `vt_conv_str_to_T`, conv.c:7-22.  The message of line 13-17 is not modelled. -/
def strToT (T : IntTy) (z : Mem) : Out Int := do
  let s ← Str.createStatic z
  let num ← Str.isNumeric s
  if !num then .ok 0
  else do
    let t ← scanZ z
    .ok (castTo T (if T.signed then strtol t else strtoul t))

/-- Decimal digits as `printf` produces them, at most `k` of them. -/
def printU : (k n : Nat) → List UInt8
  | 0, _ => []
  | k + 1, n => if n < 10 then [UInt8.ofNat (48 + n)] else printU k (n / 10) ++ [UInt8.ofNat (48 + n % 10)]

/-- `printf("%d")` of an integer of at most 64 bits: at most 20 digits, a minus sign for negative values. -/
def printD (v : Int) : List UInt8 := (if v < 0 then [45] else []) ++ printU 20 v.natAbs

/-- `vt_conv_T_to_str`, conv.c:36-45: `buf` is the memory at the pointer passed, `bufLen` the length passed. -/
def toStr (buf : Mem) (bufLen : Nat) (v : Int) : Out Mem := do
  let t := printD v
  let required := wadd t.length 1
  enforce (bufLen ≥ required)
  let m ← writeN buf 0 (t.map some ++ [some 0])
  enforce (t.length == wsub required 1)
  .ok m

end Conv
end Vita
