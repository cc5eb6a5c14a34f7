import Verif.Tests.Basic
import Verif.Model.Small
/-!
# tests/src/test_vec.c
-/

namespace Vita.Tests
open Vec

/-- `(double)0.5`, `3.125`, `24.5`, `4` and `134.431` in the format of the processor. -/
def d0_5 : BitVec (8 * 8) := 0x3fe0000000000000
def d3_125 : BitVec (8 * 8) := 0x4009000000000000
def d24_5 : BitVec (8 * 8) := 0x4038800000000000
def d4 : BitVec (8 * 8) := 0x4010000000000000
def d134_431 : BitVec (8 * 8) := 0x4060cdcac083126f

/-- `i/2.0` for `i = 0, …, 9`. -/
def halves : List Nat :=
  [0x0, 0x3fe0000000000000, 0x3ff0000000000000, 0x3ff8000000000000, 0x4000000000000000, 0x4004000000000000, 0x4008000000000000, 0x400c000000000000,
   0x4010000000000000, 0x4012000000000000]

/-- test_vec.c:5-7. -/
def func : Unit → List Byte → Nat → Unit × List Byte := fun _ _ i => ((), leBytes 8 (halves.getD i 0))

/-- `assert(vt_vec_getd(v, i) == x)`; numbers that are not zeros or NaNs are equal if their bits are. -/
def hasD (v : Arr) (i : Nat) (x : BitVec (8 * 8)) : Out Unit := do check ((← getT E v 8 i) == x)

/-- test_vec.c:12-95. -/
def vecDouble : Out Unit := do
  let v ← create E 10 8
  sizes v 0 10 10
  check (isEmpty v)
  let v ← resize E v 10
  sizes v 10 10 0
  check (!isEmpty v)
  let (v, _) ← apply func v ()
  hasD v 1 d0_5
  let v ← pushBackT E v 8 d3_125
  hasD v (v.len - 1) d3_125
  sizes v 11 30 19
  let v ← setT E v 8 d24_5 5
  hasD v 5 d24_5
  let v ← reserve E v 32
  sizes v 11 62 51
  let v ← insert E v (leBytes 8 d134_431.toNat) 5
  hasD v 5 d134_431
  sizes v 12 62 50
  let i ← canFind v (leBytes 8 d134_431.toNat)
  check (i == 5)
  let w ← dup E v
  hasD w 5 d134_431
  let w ← remove E w i.toNat .fast
  hasD w 5 d3_125
  let v ← remove E v i.toNat .stable
  hasD v 5 d24_5
  let v ← shrink E v
  sizes v 11 11 0
  let v := clear v
  sizes v 0 11 11
  let v ← resize E v 5
  sizes v 5 5 0
  let v ← resize E v 1
  sizes v 1 1 0
  let v ← pushBackT E v 8 d3_125
  hasD v (v.len - 1) d3_125
  sizes v 2 3 1
  let v ← pushBackT E v 8 d4
  hasD v (v.len - 1) d4
  sizes v 3 3 0
  let (v, x) ← popGet v
  check (x == some (leBytes 8 d4.toNat))
  sizes v 2 3 1

example : vecDouble = .ok () := by decide +kernel

/-- `while ((i = vt_array_slide_front(v)) != NULL) {}`: how often the body runs. -/
def slides : (fuel : Nat) → Arr → Out (Arr × Nat)
  | 0, _ => .fuel
  | k + 1, v => do
    let (v, x) ← Slide.front v
    match x with
    | none => .ok (v, 0)
    | some _ => do
      let (v, n) ← slides k v
      .ok (v, n + 1)

/-- `assert(vt_vec_geti32(v, i) == x)`. -/
def has32 (v : Arr) (i : Nat) (x : BitVec (8 * 4)) : Out Unit := do check ((← getT E v 4 i) == x)

/-- test_vec.c:97-127. -/
def vecMatrix : Out Unit := do
  let v ← create E 25 4
  sizes v 0 25 25
  let v ← resize E v 25
  sizes v 25 25 0
  let v ← setT E v 4 1 (Index.to1d2 0 0 5)
  let v ← setT E v 4 1 (Index.to1d2 1 1 5)
  let v ← setT E v 4 1 (Index.to1d2 2 2 5)
  let v ← setT E v 4 1 (Index.to1d2 3 3 5)
  let v ← setT E v 4 1 (Index.to1d2 4 4 5)
  has32 v 0 1
  has32 v 6 1
  has32 v 12 1
  has32 v 18 1
  has32 v 24 1
  let (_, n) ← slides fuel v
  check (n == 25)

example : vecMatrix = .ok () := by decide +kernel

/-- test_vec.c:129-163. -/
def vecRemoval : Out Unit := do
  let v ← create E 7 4
  let v ← pushBackT E v 4 1
  let v ← pushBackT E v 4 2
  let v ← pushBackT E v 4 3
  let v ← pushBackT E v 4 4
  let v ← pushBackT E v 4 5
  let v ← pushBackT E v 4 6
  let v ← pushBackT E v 4 7
  check (v.len == 7)
  has32 v 0 1
  let v ← remove E v 0 .stable
  has32 v 0 2
  check (v.len == 6)
  let v ← remove E v 0 .fast
  has32 v 0 7
  check (v.len == 5)
  let v ← remove E v (v.len - 1) .fast
  has32 v (v.len - 1) 5
  check (v.len == 4)
  let v ← remove E v (v.len - 1) .stable
  has32 v (v.len - 1) 4
  check (v.len == 3)
  let v ← resize E v 1
  has32 v 0 7
  check (v.len == 1)
  let v ← remove E v 0 .stable
  check (v.len == 0)

example : vecRemoval = .ok () := by decide +kernel

end Vita.Tests
