import Verif.Tests.Vec
import Verif.Model.Plist
/-!
# tests/src/test_plist.c

The literals are represented by addresses that differ.
-/

namespace Vita.Tests
open Plist

def ph : Ptr := 0x1000
def pw : Ptr := 0x1010
def pt : Ptr := 0x1020
def pa : Ptr := 0x1030
def pb : Ptr := 0x1040
def pc : Ptr := 0x1050
def pd : Ptr := 0x1060

/-- `assert(vt_plist_get(p, i) == q)`. -/
def hasP (p : Arr) (i : Nat) (q : Ptr) : Out Unit := do check ((← get E p i) == q)

/-- `while ((c = vt_plist_slide_front(p)) != NULL)`: what the body is given. -/
def slidesP : (fuel : Nat) → Arr → Out (Arr × List Ptr)
  | 0, _ => .fuel
  | k + 1, p => do
    let (p, q) ← slideFront p
    if q = 0 then .ok (p, []) else do
      let (p, qs) ← slidesP k p
      .ok (p, q :: qs)

/-- test_plist.c:20-72. -/
def plistMain : Out Unit := do
  let p ← create E 5
  check (p.len == 0 && p.cap == 5)
  let p ← pushBack E p ph
  let p ← pushBack E p pw
  sizes p 2 5 3
  check ((← canFind E p pw) == 1)
  check ((← canFind E p pt) == -1)
  let p ← shrink E p
  check (p.cap == 2)
  let p ← reserve E p 5
  check (p.cap == 7)
  let (p, q) ← popGet p
  check (q == pw)
  check (p.len == 1 && p.cap == 7)
  let p ← remove E p 0 .fast
  check (p.len == 0 && p.cap == 7)
  let p ← pushBack E p ph
  let p ← pushBack E p pw
  let p ← pushBack E p ph
  let p ← pushBack E p pw
  let p ← pushBack E p ph
  let p ← pushBack E p pw
  let (p, n) ← slides fuel p
  check (n == 6)
  let (p, qs) ← slidesP fuel p
  check (qs == [ph, pw, ph, pw, ph, pw])
  let q ← dup E p
  check (q.len == p.len)
  hasP q 0 (← get E p 0)
  hasP q 0 ph
  let p ← resize E p 3
  check (p.len == 3)

example : plistMain = .ok () := by decide +kernel

/-- test_plist.c:74-116. -/
def plistRemoval : Out Unit := do
  let p ← create E 1
  let p ← pushBack E p pa
  let p ← pushBack E p pb
  let p ← pushBack E p pc
  let p ← pushBack E p pd
  let p ← pushBack E p ph
  let p ← pushBack E p pw
  let p ← pushBack E p pt
  check (p.len == 7)
  hasP p 0 pa
  let p ← remove E p 0 .stable
  hasP p 0 pb
  check (p.len == 6)
  let p ← remove E p 0 .fast
  hasP p 0 pt
  check (p.len == 5)
  let p ← remove E p 0 .stable
  hasP p 0 pc
  check (p.len == 4)
  let p ← remove E p 0 .fast
  hasP p 0 pw
  hasP p 1 pd
  hasP p 2 ph
  check (p.len == 3)
  let p ← shrink E p
  check (p.len == 3 && p.cap == 3)
  let p ← remove E p (p.len - 1) .stable
  check (p.len == 2 && p.cap == 3)

example : plistRemoval = .ok () := by decide +kernel

/-- test_plist.c:118-132. -/
def plistPop : Out Unit := do
  let p ← create E 5
  let p ← pushBack E p ph
  let p ← pushBack E p pw
  let p ← pushBack E p pt
  let (p, q) ← popGet p
  check (q == pt)
  let (p, q) ← popGet p
  check (q == pw)
  let (p, q) ← popGet p
  check (q == ph)
  let (p, q) ← popGet p
  check (q == 0)
  let (_, q) ← popGet p
  check (q == 0)

example : plistPop = .ok () := by decide +kernel

end Vita.Tests
