import Verif.Model.Alias
/-!
# Formatting a string's own text into the string

`vt_str_appendf(s, "..%s..", vt_str_z(s) + off)` and the like.  The output of the formatter is made of pieces: text from elsewhere, and conversions `%s` or
`%.*s` of a pointer into the block of the string.
-/

namespace Vita
namespace Str

/-- A piece of the output: `lit` is text that does not come from the string; `own off none` is `%s` of the string's block from the byte `off` on,
`own off (some k)` is `%.*s` with precision `k`. -/
inductive Piece
  | lit (t : List UInt8)
  | own (off : Nat) (prec : Option Nat)

/-- `%.*s`: the text in front of the terminator, at most `k` characters, and the number of bytes read. -/
def scanMax : Mem → Nat → Out (List UInt8 × Nat)
  | _, 0 => .ok ([], 0)
  | [], _ => .ub
  | none :: _, _ => .ub
  | some c :: m, k + 1 =>
    if c = 0 then .ok ([], 1)
    else do
      let (t, n) ← scanMax m k
      .ok (c :: t, n + 1)

/-- What the formatter makes of a piece, and which bytes of the block it reads (first byte and number). -/
def piece (m : Mem) : Piece → Out (List UInt8 × Nat × Nat)
  | .lit t => .ok (t, 0, 0)
  | .own off none => do
    let t ← scanZ (m.drop off)
    .ok (t, off, t.length + 1)
  | .own off (some k) => do
    let (t, n) ← scanMax (m.drop off) k
    .ok (t, off, n)

/-- The whole output, and the areas read. -/
def render (m : Mem) : List Piece → Out (List UInt8 × List (Nat × Nat))
  | [] => .ok ([], [])
  | p :: ps => do
    let (t, r) ← piece m p
    let (u, rs) ← render m ps
    .ok (t ++ u, r :: rs)

/-- Does the piece come from the string? -/
def Piece.isOwn : Piece → Bool
  | .lit _ => false
  | .own _ _ => true

/-- Do the areas of `r.2` bytes from `r.1` on and of `n` bytes from `p` on have a byte in common? -/
def overlaps (p n : Nat) (r : Nat × Nat) : Bool := decide (r.1 < p + n ∧ p < r.1 + r.2)

/-- `vt_str_appendf`, str.c:324-340, with `vt_str_vfmt_append`, str.c:1428-1462, where the output has pieces of the string itself.  The output is measured
first (line 1438).  If the block is reallocated (line 1448), the pointers to it are invalid; otherwise `vsnprintf` (line 1453) writes the output and a
terminator behind the text, which is undefined if it reads a byte of that area. -/
def appendfOwn (E : Env) (s : Arr) (ps : List Str.Piece) : Out Arr := do
  let (out, rs) ← render s.mem ps
  if hasSpace s < out.length ∧ ps.any Piece.isOwn then do
    let _ ← grow E s out.length
    .ub
  else if rs.any (overlaps s.len (out.length + 1)) then .ub
  else appendf E s out

/-- `vt_str_insertf`, str.c:397-447, in the same way: the output goes to a buffer outside of the string (line 425) or to a temporary string
(lines 431-432) before the string is changed. -/
def insertfOwn (E : Env) (s : Arr) (at_ : Nat) (ps : List Str.Piece) : Out Arr := do
  let (out, _) ← render s.mem ps
  insertf E s at_ out

/-- `vt_str_insert_before(s, sub, s->ptr + off)`, str.c:475-490. -/
def insertBeforeOwn (E : Env) (s : Arr) (sub : Mem) (off : Nat) : Out Arr := do
  let idx ← indexFind s sub
  if idx < 0 then .ok s else insertOwn E s off idx.toNat

/-- `vt_str_insert_after(s, sub, s->ptr + off)`, str.c:492-507. -/
def insertAfterOwn (E : Env) (s : Arr) (sub : Mem) (off : Nat) : Out Arr := do
  let idx ← indexFind s sub
  if idx < 0 then .ok s else do
    let n ← strlen sub
    insertOwn E s off (wadd idx.toNat n)

end Str
end Vita
