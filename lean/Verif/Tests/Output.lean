import Verif.Tests.Basic
import Verif.Model.Macros
import Verif.Model.LogCode
import Verif.Model.MalPrint
/-!
# tests/src/test_mallocator.c, test_debug.c and test_log.c

These programs check little; what they print is stated here.
-/

namespace Vita.Tests
open Fs

/-- The C library takes the next number that no block has for an address. -/
def nextFree (H : Mal.Heap) : Nat := H.addrs.foldl max 0 + 1

/-- No address in use is as large. -/
theorem nextFree_fresh (H : Mal.Heap) : nextFree H ∉ H.addrs := by
  intro h
  have aux : ∀ (l : List Nat) (a x : Nat), (x ∈ l ∨ x ≤ a) → x ≤ l.foldl max a := by
    intro l
    induction l with
    | nil => intro a x hx; simpa using hx
    | cons b l ih =>
      intro a x hx
      apply ih
      rcases hx with hx | hx
      · rcases List.mem_cons.1 hx with rfl | hx
        · exact .inr (Nat.le_max_right _ _)
        · exact .inl hx
      · exact .inr (Nat.le_trans hx (Nat.le_max_left _ _))
  have := aux H.addrs 0 _ (.inl h)
  unfold nextFree at this
  omega

/-- Such a C library. -/
def nextAllocator : Mal.Allocator where
  calloc H _ := nextFree H
  realloc H _ _ := nextFree H
  calloc_fresh H _ := ⟨by unfold nextFree; omega, nextFree_fresh H⟩
  realloc_fresh H _ _ := ⟨by unfold nextFree; omega, .inr (nextFree_fresh H)⟩

/-- test_mallocator.c:5-18. -/
def malMain : Out (List UInt8 × List (Nat × Nat)) := do
  let (m, H) ← Mal.create E nextAllocator ⟨[], 0⟩
  let (m, H, val) ← Mal.alloc E nextAllocator H m 4
  let (m, H, zbuf) ← Mal.alloc E nextAllocator H m 100
  let (m, H) ← Mal.free E H m zbuf
  let (m, H, zbuf) ← Mal.alloc E nextAllocator H m 210
  let (m, H) ← Mal.free E H m val
  let (m, H) ← Mal.free E H m zbuf
  let out := Mal.printStats m.stats
  let H ← Mal.destroy H m
  .ok (out, H.blocks)

/-- Three requests, three releases, no memory left over. -/
example : malMain = .ok (t (
    "|-------------------------|\n" ++
    "|    MALLOCATOR STATS     |\n" ++
    "|-------------------------|\n" ++
    "| N   ALLOCS |          3 |\n" ++
    "| N REALLOCS |          0 |\n" ++
    "| N    FREES |          3 |\n" ++
    "|-------------------------|\n" ++
    "| B T.ALLOCD |        314 |\n" ++
    "| B C.ALLOCD |          0 |\n" ++
    "| B    FREED |        314 |\n" ++
    "|-------------------------|\n" ++
    "| (N) - COUNT             |\n" ++
    "| (B) - BYTES             |\n" ++
    "| (T) - TOTAL             |\n" ++
    "| (C) - CURRENT           |\n" ++
    "|-------------------------|\n"), []) := by decide +kernel

/-- A place in one of the test programs. -/
def site (now path : String) (line : Nat) (body : String) : Macro.Site := ⟨t now, t path, t "main", line, t body⟩

/-- The output that test_debug.c:9 gives for the use in line 8. -/
example : (Debug.run { world := { nodes := [] } } (Macro.expand true
      (.debugAssert false (t "10 > 13"), site "2022-09-09 21:13:32" "src/test_debug.c" 9 "This is a debug assert error message!"))).mapOk
        (fun r => (r.1.err, r.2)) =
    .ok (t "2022-09-09 21:13:32 DEBUG ASSERTION FAILURE [10 > 13] test_debug.c:main:9: This is a debug assert error message!\n", true) := by decide +kernel

/-- test_debug.c:11-14. -/
def debugMain : List (Macro.Use × Macro.Site) :=
  [(.check false (t "1 == 2"), site "2022-09-09 21:13:32" "src/test_debug.c" 11 "If you read this, then the condition failed(\\:-:/)!"),
   (.debugPrintf, site "2022-09-09 21:13:32" "src/test_debug.c" 12 "This is a DEBUG message(123)!\n"),
   (.note, site "2022-09-09 21:13:32" "src/test_debug.c" 14 "This is a note.")]

/-- Three messages, and the program goes on. -/
example : (Debug.run { world := { nodes := [] } } (debugMain.flatMap (Macro.expand true))).mapOk (fun r => (r.1.err, r.2)) =
    .ok (t ("2022-09-09 21:13:32 CHECK FAILURE [1 == 2] test_debug.c:main:11: If you read this, then the condition failed(\\:-:/)!\n" ++
      "2022-09-09 21:13:32 DEBUG INFO This is a DEBUG message(123)!\n" ++
      "2022-09-09 21:13:32 NOTE [!] test_debug.c:main:14: This is a note.\n"), false) := by decide +kernel

/-- A call in test_log.c, one of the macros without (`none`) or with a file name. -/
def logAt (f : Option String) (line : Nat) (body : String) (u : Macro.LogUse) : Log.Call :=
  Macro.expandLog (f.map c) (site "2022-09-09 21:13:32" "src/test_log.c" line body) u

/-- The file of test_log.c. -/
def logger : String := "other/test_logger.log"

/-- test_log.c:12-45. -/
def logMain : List Log.Call :=
  [logAt none 12 "[s] This is an info test. 12345 qwerty." .info,
   logAt none 13 "[s] Testing LOG formatter." .warn,
   logAt none 14 "[s] Testing: debugging = debug msg, debug2" .debug,
   logAt none 15 "[s] Error: testing..." .error,
   .all (some (c logger)),
   logAt none 20 "[f] This is an info test." .info,
   logAt none 21 "[f] Testing LOG formatter." .warn,
   logAt none 22 "[f] Testing: debugging = debug msg, debug2" .debug,
   logAt none 23 "[f] Error: testing..." .error,
   .all none,
   logAt (some logger) 40 "This is a test. Trying out new functionality." .info,
   logAt (some logger) 41 "This is a test. Trying out new functionality." .warn,
   logAt (some logger) 42 "This is a test. Trying out new functionality." .error,
   logAt none 45 "Hello, world!\n" (.assert true (t "1"))]

/-- test_log.c:8. -/
example : Log.levelStrCode E 4 = .ok (t "FATAL") := by decide +kernel

/-- Four messages to `stderr`, seven to the file, and the program goes on.  The remark at test_log.c:18, that nothing is written to the file after
`vt_log_redirect_all_output`, does not apply to the code as it is. -/
example : (Log.run true ⟨Log.initNames, { nodes := [([t "tests"], .dir), ([t "tests", t "other"], .dir)], cwd := [t "tests"] }, []⟩ logMain).mapOk
      (fun r => (r.1.err, (openR r.1.world (t logger)).getD [], r.2)) =
    .ok (t ("2022-09-09 21:13:32  INFO test_log.c:12: [s] This is an info test. 12345 qwerty.\n" ++
      "2022-09-09 21:13:32  WARN test_log.c:13: [s] Testing LOG formatter.\n" ++
      "2022-09-09 21:13:32 DEBUG test_log.c:14: [s] Testing: debugging = debug msg, debug2\n" ++
      "2022-09-09 21:13:32 ERROR test_log.c:15: [s] Error: testing...\n"),
     t ("2022-09-09 21:13:32  INFO test_log.c:20: [f] This is an info test.\n" ++
      "2022-09-09 21:13:32  WARN test_log.c:21: [f] Testing LOG formatter.\n" ++
      "2022-09-09 21:13:32 DEBUG test_log.c:22: [f] Testing: debugging = debug msg, debug2\n" ++
      "2022-09-09 21:13:32 ERROR test_log.c:23: [f] Error: testing...\n" ++
      "2022-09-09 21:13:32  INFO test_log.c:40: This is a test. Trying out new functionality.\n" ++
      "2022-09-09 21:13:32  WARN test_log.c:41: This is a test. Trying out new functionality.\n" ++
      "2022-09-09 21:13:32 ERROR test_log.c:42: This is a test. Trying out new functionality.\n"), false) := by decide +kernel

end Vita.Tests
