import Verif.Tests.Basic
import Verif.Model.Small
import Verif.Model.SpanTyped
import Verif.Model.Foreach
import Verif.Model.ConvFloat
import Verif.Model.Math
import Verif.Model.MathFloat
/-!
# tests/src/test_core.c, test_span.c, test_conv.c and test_math.c
-/

namespace Vita.Tests

/-- test_core.c:5-28. -/
def coreMain : Out Unit := do
  check (5 == Index.to1d2 1 0 5)
  let (row, col) ← Index.from1d2 5 5
  check (row == 1)
  check (col == 0)
  check (25 == Index.to1d3 row col 1 4 5)
  let (row, col, depth) ← Index.from1d3 25 4 5
  check (row == 1)
  check (col == 0)
  check (depth == 1)

example : coreMain = .ok () := by decide +kernel

/-- test_span.c:6-35. -/
def spanMain : Out Unit := do
  let text := t "1234567890 hello, world 1234567890 hello, world"
  let buffer : Mem := text.map some ++ List.replicate (512 - text.length) (some 0)
  let s ← Span.from_ E 47 1
  check ((← Span.get E buffer s 0) == [some 49])
  check ((← Span.get E buffer s 1) == [some 50])
  check ((← Span.get E buffer s 2) == [some 51])
  let buffer ← Span.setT E buffer s 1 88 0
  check ((← getc buffer 0) == 88)
  check ((← Span.get E buffer s 0) == [some 88])
  let v ← Vec.create E 10 4
  let v ← Foreach.foreach (fun i v => Vec.pushBackT E v 4 (BitVec.ofNat _ i)) 10 fuel 0 v
  check ((← Vec.getT E v 4 3) == 3)
  let s ← Span.fromTo E v.mem 2 5 v.elsize
  check (s.len == 3)
  check ((← Span.getT E v.mem s 4 0) == 2)
  check ((← Span.getT E v.mem s 4 1) == 3)
  check ((← Span.getT E v.mem s 4 2) == 4)

example : spanMain = .ok () := by decide +kernel

/-- test_conv.c:5-23. -/
def convMain : Out Unit := do
  check ((← Conv.strToT ⟨true, 64⟩ (c "123")) == 123)
  check ((← Conv.strToT ⟨true, 64⟩ (c "00123")) == 123)
  check ((← Conv.strToT ⟨false, 64⟩ (c "985454325454")) == 985454325454)
  check ((← Conv.strToF Spec.binary64 (c "985454325454.22548")) == .fin false (Spec.rnd Spec.binary64 985454325454.22548))
  let buf ← Conv.toStr (List.replicate 36 none) 36 123456
  sameZ buf "123456"
  let buf ← Conv.fToStr buf 36 (.fin false (Spec.rnd Spec.binary64 123456.123456))
  sameZ buf "123456.123456"

example : convMain = .ok () := by decide +kernel

/-- test_math.c:9 and 36-37; the function takes numbers of type `float`. -/
def mathMain : Out Unit := do
  check (← Math.isPalindrome fuel 9009)
  check (Math.isClose32 (Spec.rnd Spec.binary32 10) (Spec.rnd Spec.binary32 9.9) (Spec.rnd Spec.binary32 0.11))
  check (Math.isClose32 (Spec.rnd Spec.binary32 0.5) (Spec.rnd Spec.binary32 0.49) (Spec.rnd Spec.binary32 0.01))

example : mathMain = .ok () := by decide +kernel

end Vita.Tests
