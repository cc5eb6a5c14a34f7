import Verif.Model.Str
import Verif.Model.Printf
/-!
# The project's own tests, run on the model

The files of this directory translate the test programs of `/repo/tests/src` statement by statement: each `main` becomes a computation in the model, each `assert` of the test
a `check`.  The kernel evaluates it.  A model that gave another result than the authors of the library expect would fail here.  What a test prints and does not check is left
out, as are the assertions that name a directory of the authors' machines; the file system tests use a small file system of their own.
-/

namespace Vita.Tests

/-- A string literal of C. -/
def c (s : String) : Mem := s.toUTF8.data.toList.map some ++ [some 0]

/-- The characters of a literal. -/
def t (s : String) : List UInt8 := s.toUTF8.data.toList

/-- `assert` of the test programs. -/
def check (b : Bool) : Out Unit := if b then .ok () else .exit .cAssert

/-- `assert(vt_str_equals_z(vt_str_z(s), "..."))`. -/
def isZ (s : Arr) (x : String) : Out Unit := do check (← Str.equalsZ s.mem (c x))

/-- `assert(vt_str_equals_z(buf, "..."))`. -/
def sameZ (m : Mem) (x : String) : Out Unit := do check (← Str.equalsZ m (c x))

/-- Length, capacity and free space as expected. -/
def sizes (s : Arr) (len cap space : Nat) : Out Unit := check (s.len == len && s.cap == cap && hasSpace s == space)

/-- A debug build in which memory for all these tests is available. -/
def E : Env := ⟨true, fun n => decide (n < 2 ^ 40), false, by
  intro n h
  have := of_decide_eq_true h
  omega⟩

/-- A bound for the loops that need one. -/
def fuel : Nat := 1000

end Vita.Tests
