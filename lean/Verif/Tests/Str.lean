import Verif.Tests.Basic
import Verif.Model.AliasText
/-!
# tests/src/test_str.c
-/

namespace Vita.Tests
open Str

/-- test_str.c:12-15. -/
def strStatic : Out Unit := do
  let s ← createStatic (c "hello, world")
  isZ s "hello, world"
  check (← startsWith s (c "hello"))
  check (← endsWith s (c "world"))

example : strStatic = .ok () := by decide +kernel

/-- test_str.c:17-78. -/
def strOperations : Out Unit := do
  let s ← create E (c "hello, world!")
  sizes s 13 13 0
  check (!isEmpty s)
  isZ s "hello, world!"
  let s ← reserve E s 65
  sizes s 13 (65 + 13) 65
  let s ← clear s
  let s ← append E s (c "Apples are sweet!")
  sizes s 17 (65 + 13) (65 + 13 - 17)
  isZ s "Apples are sweet!"
  let s ← append E s (c "Watermellon is red?")
  sizes s (17 + 19) (65 + 13) (65 + 13 - 17 - 19)
  let s ← insert E s (c "Oranges.") 0
  sizes s (17 + 19 + 8) (65 + 13) (65 + 13 - 17 - 19 - 8)
  let s ← remove E s 4 3
  let (s, _) ← removeFirst s (c "Watermellon is red")
  check ((← canFind fuel s (c "sweet")) == 1)
  check ((← canFind fuel s (c "Oran")) == 1)
  isZ s "Oran.Apples are sweet!?"
  let u ← createStatic (c "hi t_hi_s is a test hi, world hi")
  check ((← canFind fuel u (c "hi")) == 4)
  let s ← shrink E s
  sizes s 23 23 0
  let d ← dup E s
  sizes d 23 23 0
  let s ← clear s
  sizes s 0 23 23
  isZ s ""
  let d ← createLen E 10
  sizes d 10 10 0

example : strOperations = .ok () := by decide +kernel

/-- test_str.c:80-99. -/
def strAppending : Out Unit := do
  let s ← create E (c "hello ")
  sizes s 6 6 0
  let s ← appendf E s (t "world")
  sizes s 11 11 0
  isZ s "hello world"
  let s ← append E s (c "!")
  let s ← insert E s (c ",") 5
  isZ s "hello, world!"
  let s ← append E s (c " hello ")
  let s ← appendf E s (t "world!")
  isZ s "hello, world! hello world!"

example : strAppending = .ok () := by decide +kernel

/-- test_str.c:101-139. -/
def strInserting : Out Unit := do
  let s ← create E (c "<defs></defs>")
  let s ← insert E s (c "[]") 6
  isZ s "<defs>[]</defs>"
  let s ← insertN E s (c "123456789") 7 3
  isZ s "<defs>[123]</defs>"
  let s ← insert E s (c "[") 7
  let s ← insert E s (c "]") 11
  isZ s "<defs>[[123]]</defs>"
  let s ← insertf E s 13 (t "[[456]]")
  isZ s "<defs>[[123]][[456]]</defs>"
  let s ← insertN E s (c "1234567890") 13 3
  isZ s "<defs>[[123]]123[[456]]</defs>"
  let s ← insertN E s (c "4567890") 16 3
  isZ s "<defs>[[123]]123456[[456]]</defs>"
  let s ← insertN E s (c "7890") 19 3
  isZ s "<defs>[[123]]123456789[[456]]</defs>"
  let s ← clear s
  let s ← append E s (c "hello ")
  let s ← appendf E s (t "world ")
  let s ← append E s (c "APPEND")
  isZ s "hello world APPEND"
  let s ← insertBefore E s (c "world") (c "[1, 2, 3] ")
  isZ s "hello [1, 2, 3] world APPEND"
  let s ← insertAfter E s (c "world") (c " [4, 5, 6]")
  isZ s "hello [1, 2, 3] world [4, 5, 6] APPEND"
  let s ← insertAfter E s (c "not_found") (c " [1, 2, 3]")
  isZ s "hello [1, 2, 3] world [4, 5, 6] APPEND"

example : strInserting = .ok () := by decide +kernel

/-- test_str.c:141-151. -/
def strLen : Out Unit := do
  let s ← createLen E 1
  sizes s 1 1 0
  let s ← append E s (c "hello")
  isZ s "?hello"

example : strLen = .ok () := by decide +kernel

/-- test_str.c:153-193. -/
def strSplitting : Out Unit := do
  let s ← takeOwnership E (c "12345, world")
  sizes s 12 12 0
  let s ← append E s (c "! How are you?")
  check (s.len == 26)
  isZ s "12345, world! How are you?"
  let s ← append E s (c " hello, world; hello again. This is hello!")
  let s ← clear s
  let s ← append E s (c ";My name is Kirillos;How are you?;let's play;")
  match ← split E fuel s (c ";") with
  | none => check false
  | some p => check (p.length == 3)
  let (x, s) ← popGetFirst E none s (c "Kirillos")
  match x with
  | none => check false
  | some x => isZ x ";My name is "
  let (x, s) ← popGetLast E fuel none s (c "you?;")
  match x with
  | none => check false
  | some x => isZ x "let's play;"
  isZ s ";How are "
  let s ← create E (c "hello world of world of wonders!")
  let (x, s) ← popGetLast E fuel none s (c "world")
  match x with
  | none => check false
  | some x => isZ x " of wonders!"
  isZ s "hello world of "

example : strSplitting = .ok () := by decide +kernel

/-- test_str.c:195-228. -/
def strStripping : Out Unit := do
  let s ← create E (c "   \nhello, world\t  ")
  let s ← strip fuel s
  check (s.len == 12)
  isZ s "hello, world"
  let s ← create E (c "\n  ..,!  hello, world  ;;-!  \t\n")
  let s ← stripPunct fuel s
  check (s.len == 12)
  isZ s "hello, world"
  let s ← create E (c "\n  ..,!  hello, world  ;;-!  \t\n")
  let s ← stripC fuel s (c "\n .,;!\t-")
  check (s.len == 12)
  isZ s "hello, world"
  let s ← create E (c "\n  ..,!  hello, world  ;;-!  \t\n")
  let s ← removeC s (c "\n .,;!\t-")
  check (s.len == 10)
  isZ s "helloworld"
  let s ← create E (c "Here is a shopping list: apples and oranges, milk and sugar, and vinegar.")
  let s ← removeAll fuel s (c " and")
  isZ s "Here is a shopping list: apples oranges, milk sugar, vinegar."
  let s ← create E (c "hello, world, world!")
  let (s, _) ← removeLast E fuel s (c ", world")
  isZ s "hello, world!"
  check (s.len == 13)

example : strStripping = .ok () := by decide +kernel

/-- test_str.c:230-264.  The callback writes `'b'`. -/
def strApplying : Out Unit := do
  let s ← create E (c "A A A")
  let s ← apply (fun _ _ => 98) s
  isZ s "bbbbb"
  let s ← clear s
  let s ← appendf E s (← Fmt.printf (Fmt.ascii "%s %d %s") [.str (t "I have"), .int 2, .str (t "apples")])
  isZ s "I have 2 apples"
  let s ← clear s
  let s ← appendf E s (t "abc")
  let s ← appendf E s (t "def")
  isZ s "abcdef"
  let s ← createCapacity E 1
  let s ← appendf E s (← Fmt.printf (Fmt.ascii "%s, %s. %s %d!") [.str (t "hello"), .str (t "world"), .str (t "hi"), .int 5])
  isZ s "hello, world. hi 5!"
  let s ← create E (c "hello, world!")
  let s ← toUppercase s
  isZ s "HELLO, WORLD!"
  check (!(← isNumeric s))
  let s ← set E s (c "123")
  check (← isNumeric s)
  let s ← clear s
  let s ← append E s (c "564.025")
  check (← isNumeric s)
  match ← splitBetween E none (c "https :1.8.8.8@ world") (c ":") (c "@") with
  | none => check false
  | some s => isZ s "1.8.8.8"

example : strApplying = .ok () := by decide +kernel

/-- test_str.c:266-306. -/
def strLooking : Out Unit := do
  let s ← create E (c "123456789")
  sizes s 9 9 0
  let m ← putc s.mem 4 0
  let (s, n) ← validateLen { s with mem := m }
  check (n == 4)
  sizes s 4 9 5
  let s ← create E (c "Hello, World! How are you?")
  check ((← indexOf s 111) == 4)
  check ((← indexOf s 122) == -1)
  check ((← indexFind s (c "How")) == 14)
  let s ← create E (c "file.txt")
  check ((← popGetFirst E none s (c "/")).1.isNone)
  check ((← popGetLast E fuel none s (c "/")).1.isNone)
  check ((← popGetFirst E none s (c "file.txt")).1.isNone)
  check ((← popGetLast E fuel none s (c "file.txt")).1.isNone)
  let s ← popGetFirstSelf E s (c "file.txt")
  let _ ← popGetLastSelf E fuel s (c "file.txt")
  let s ← create E (c "John")
  let d ← dup E s
  check (← equals s d)

example : strLooking = .ok () := by decide +kernel

/-- test_str.c:308-358. -/
def strReplacing : Out Unit := do
  let s ← create E (c ";apple;orange;potato;mango;strawberry;papaya;kiwi;")
  sizes s 50 50 0
  let s ← replaceC s (c ";aot") (c ",AO")
  isZ s ",Apple,OrAnge,pOOAOO,mAngO,sOrAwberry,pApAyA,kiwi,"
  sizes s 50 50 0
  let s ← replace E fuel s (c ",") (c ";")
  isZ s ";Apple;OrAnge;pOOAOO;mAngO;sOrAwberry;pApAyA;kiwi;"
  sizes s 50 50 0
  let s ← replaceFirst E s (c ";") (c ",")
  let s ← replaceFirst E s (c ";") (c ",")
  isZ s ",Apple,OrAnge;pOOAOO;mAngO;sOrAwberry;pApAyA;kiwi;"
  let s ← replaceLast E fuel s (c ";") (c ",")
  let s ← replaceLast E fuel s (c ";") (c ",")
  isZ s ",Apple,OrAnge;pOOAOO;mAngO;sOrAwberry;pApAyA,kiwi,"
  let s ← create E (c "hello/world/folder")
  let s ← replace E fuel s (c "world") (c "fishfish")
  isZ s "hello/fishfish/folder"
  let s ← create E (c "hello, world")
  let s ← setAt E s (c "Artem") 7
  isZ s "hello, Artem"
  let s ← setAt E s (c "A") 11
  isZ s "hello, ArteA"
  let s ← setC E s 109 (s.len - 1)
  isZ s "hello, Artem"

example : strReplacing = .ok () := by decide +kernel

/-- The test of `vt_str_remove_last` (test_str.c:224-228) passes although the function counts the position from the wrong end (C29): the text "hello, world, world!" repeats
itself, and removing seven characters at 8 or at 12 leaves the same.  With another text between the instances it would fail. -/
def strRemoveLastMore : Out Unit := do
  let s ← create E (c "a, world and, world!")
  let (s, _) ← removeLast E fuel s (c ", world")
  isZ s "a, world and!"

example : strRemoveLastMore = .exit .cAssert := by decide +kernel

end Vita.Tests
