import Verif.Tests.Basic
import Verif.Model.FileIo
import Verif.Model.AliasText
/-!
# tests/src/test_fileio.c and tests/src/test_path.c
-/

namespace Vita.Tests
open Fs

/-- The text of a file of the working directory `tests`. -/
def contents (w : World) (x : String) : List UInt8 := (openR w (t x)).getD []

/-- The directory `tests` with `other/test_file.txt` of the repository in it. -/
def w0 : World :=
  { nodes := [([t "tests"], .dir), ([t "tests", t "src"], .dir), ([t "tests", t "src", t "test_path.c"], .file (t "int main(void)")),
      ([t "tests", t "other"], .dir), ([t "tests", t "other", t "test_file.txt"], .file (t "12345\nhello\nworld\n"))],
    cwd := [t "tests"] }

/-- The text that the test writes. -/
def words : String := "hello, world\nthis is a new day\n12345 test"

/-- test_fileio.c:42-64. -/
def fileWrite : Out World := do
  let w := w0
  match ← FileIo.read E w (c "other/test_file.txt") with
  | none => check false
  | some s => check (s.len == 18)
  let (w, _) ← FileIo.write w (c "other/test_file2.txt") (c words)
  let (w, _) ← FileIo.writeln w (c "other/test_file3.txt") (c words)
  let (w, _) ← FileIo.appendln w (c "other/test_file3.txt") (c words)
  let (w, _) ← FileIo.append w (c "other/test_file3.txt") (c words)
  match ← FileIo.read E w (c "other/test_file3.txt") with
  | none => check false
  | some s => isZ s (words ++ "\n" ++ words ++ "\n" ++ words)
  let (w, _) ← FileIo.writef w (c "other/test_file4.txt") (← Fmt.printf (Fmt.ascii "%s, %s\n") [.str (t "hello"), .str (t "world")])
  let (_, buf) ← FileIo.readToBuffer E w (c "other/test_file2.txt") (List.replicate 512 (some 0)) 512
  sameZ buf words
  .ok w

/-- The test ends, and leaves the files of 41, 125 and 13 bytes that are in the directory `/repo/tests/other`, where the authors ran it. -/
example : fileWrite.mapOk (fun w => (contents w "other/test_file2.txt", (contents w "other/test_file2.txt").length, contents w "other/test_file3.txt",
      (contents w "other/test_file3.txt").length, contents w "other/test_file4.txt", (contents w "other/test_file4.txt").length)) =
    .ok (t words, 41, t words ++ [10] ++ t words ++ [10] ++ t words, 125, t "hello, world\n", 13) := by decide +kernel

/-- test_path.c:38 and 77-112 (the working directory and its contents are those above). -/
def pathMain : Out Unit := do
  let w := w0
  check (Path.exists_ w (t "/home/lala") == false)
  let s ← Path.buildN E none [c "hello", c "world", c "media", c "dev"]
  isZ s "hello/world/media/dev"
  let s ← Path.getCwd E (some (c "/tests"))
  isZ s "/tests"
  check (Path.exists_ w (t "/tests/src"))
  check (Path.isDir w (t "/tests/src"))
  check (Path.isFile w (t "/tests/src/test_path.c"))
  match ← Path.dirList E w (c "/tests/src/") true with
  | none => check false
  | some l => check (l.length == 1)
  let s ← Str.create E (c "my/test/folder/text.txt")
  let s ← Path.basenameOwn E fuel s 0
  isZ s "text.txt"
  let s ← Str.create E (c "file.txt")
  let s ← Path.basenameOwn E fuel s 0
  isZ s "file.txt"
  let (w, _) := Path.mkdir w (t "hello_test_dir")
  check (Path.exists_ w (t "hello_test_dir"))
  let (w, _) ← Path.mkdirParents E fuel w (c "hello/world/of/my/")
  check (Path.exists_ w (t "hello/world/of/my/"))
  let (w, _) := Path.rmdir w (t "hello_test_dir")
  check (!Path.exists_ w (t "hello_test_dir"))
  let (w, _) ← Path.rmdirRecurse E fuel w (c "hello")
  check (!Path.exists_ w (t "hello"))

example : pathMain = .ok () := by decide +kernel

/-- test_path.c:166-184. -/
def pathTilda : Out Unit := do
  let a ← Path.expandTilda E (some (c "/home/kiril")) (c "~/hello")
  let b ← Path.expandTilda E (some (c "/home/kiril")) (c "./~")
  isZ a "/home/kiril/hello"
  isZ b "./~"

example : pathTilda = .ok () := by decide +kernel

/-- test_path.c:186-200.  On Linux this assertion fails: `readlink` stores no terminator, and the question marks of the new string follow (C75).  (The authors' other systems store
one.) -/
def pathSelf : Out Unit := do
  match ← Path.exeLocation E (some (t "/tests/bin/test_path")) with
  | none => check false
  | some s => isZ s "/tests/bin/test_path"

set_option maxRecDepth 100000 in
example : pathSelf = .exit .cAssert := by decide +kernel

/-- `vt_path_pop` on the text of a string, and `vt_str_validate_len`. -/
def popped (s : Arr) (x : String) (n : Nat) : Out Arr := do
  let m ← Path.pop s.mem
  let s := { s with mem := m }
  isZ s x
  let (s, k) ← Str.validateLen s
  check (k == n)
  .ok s

/-- test_path.c:202-235. -/
def pathPop : Out Unit := do
  let s ← Str.create E (c "./hello/world/bin")
  let s ← popped s "./hello/world" 13
  let s ← popped s "./hello" 7
  let s ← popped s "." 1
  let _ ← popped s "." 1

example : pathPop = .ok () := by decide +kernel

end Vita.Tests
