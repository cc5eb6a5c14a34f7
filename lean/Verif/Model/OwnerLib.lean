import Verif.Model.Owner
import Verif.Model.PathFs
import Verif.Model.FileIo
/-!
# Library functions that create and destroy containers themselves

`Model/Str.lean`, `PathFs.lean` and `FileIo.lean` describe what these functions compute; a list of strings is there just a list.  Here the same functions
are programs over numbered containers (`Model/Owner.lean`): lists of pointers to strings, temporary strings, and who destroys them.

A pointer to the container number `n` is stored in a list as the pattern `n + 1` (so that it is not NULL).  Numbers are not reused; a program
that creates 2^64 - 1 containers or more is treated as out of memory when it stores the pointer.
-/

namespace Vita.Own

/-- A piece of code working on containers: a result without effect; a command, then the rest; the contents of container `i`, on which the rest may depend;
the number the next created container will have. -/
inductive Prog (α : Type) : Type
  | out (o : Out α)
  | cmd (c : Cmd) (k : Prog α)
  | look (i : Nat) (k : Kind × Arr → Prog α)
  | next (k : Nat → Prog α)

namespace Prog

/-- One piece of code after the other. -/
def bind : Prog α → (α → Prog β) → Prog β
  | out (.ok a), f => f a
  | out (.exit w), _ => out (.exit w)
  | out .ub, _ => out .ub
  | out .fuel, _ => out .fuel
  | cmd c k, f => cmd c (k.bind f)
  | look i k, f => look i fun o => (k o).bind f
  | next k, f => next fun n => (k n).bind f

instance : Monad Prog where
  pure a := out (.ok a)
  bind := bind

/-- The code on the heap of the program. -/
def onHeap (E : Env) (A : Mal.Allocator) : Prog α → St → Out (St × α)
  | out o, s => do
    let a ← o
    .ok (s, a)
  | cmd c k, s => do
    let s ← step E A s c
    k.onHeap E A s
  | look i k, s => do
    let o ← s.live i
    (k (o.kind, o.arr)).onHeap E A s
  | next k, s => (k s.objs.length).onHeap E A s

end Prog

open Prog

/-- A creating function; the number of the new container. -/
def make (tracked : Bool) (m : Make) : Prog Nat := .next fun n => .cmd (.make tracked m) (.out (.ok n))

/-- A creating function with the allocator of container `i`. -/
def makeLike (i : Nat) (m : Make) : Prog Nat := .next fun n => .cmd (.makeLike i m) (.out (.ok n))

/-- `vt_str_dup`. -/
def dup (i : Nat) : Prog Nat := .next fun n => .cmd (.dup i false) (.out (.ok n))

/-- A call. -/
def call (i : Nat) (c : Call) : Prog Unit := .cmd (.call i c) (.out (.ok ()))

/-- A destroying function. -/
def discard (i : Nat) : Prog Unit := .cmd (.destroy i) (.out (.ok ()))

/-- The fields of a container. -/
def fields (i : Nat) : Prog Arr := .look i fun o => .out (.ok o.2)

/-- The pointer to container `n`. -/
def ptrTo (n : Nat) : Prog Ptr := .out (if n + 1 < 2 ^ 64 then .ok (BitVec.ofNat 64 (n + 1)) else .exit .alloc)

/-- The container a pointer points to. -/
def target (q : Ptr) : Prog Nat := .out (if q = 0 then .ub else .ok (q.toNat - 1))

/-- `vt_plist_push_back(p, x)` for a container `x`. -/
def push (p x : Nat) : Prog Unit := do
  let q ← ptrTo x
  call p (.plPushBack q)

/-- `vt_plist_slide_front(p)`. -/
def slide (p : Nat) : Prog Ptr := do
  let l ← fields p
  let r ← .out (Plist.slideFront l)
  call p .plSlide
  .out (.ok r.2)

/-- `vt_plist_get(p, i)`. -/
def get (E : Env) (p i : Nat) : Prog Ptr := do
  let l ← fields p
  .out (Plist.get E l i)

/-! ### Splitting -/

/-- The loop of `vt_str_split`, str.c:961-986; see `Str.splitLoop`. -/
def splitLoop (p : Nat) (m sep : Mem) (n : Nat) : (fuel head : Nat) → Prog Unit
  | 0, _ => .out .fuel
  | fuel + 1, head => do
    let current ← .out (strstrAt m head sep)
    let hl ← .out (strlenAt m head)
    let cl ← .out (match current with
      | none => .ok 0
      | some c => strlenAt m c)
    let copyLen := wsub hl cl
    if copyLen = 0 then splitLoop p m sep n fuel (head + n)
    else do
      let t ← makeLike p (.strLen copyLen)
      call t (.setN (m.drop head) copyLen)
      push p t
      match current with
      | none => .out (.ok ())
      | some c => do
        let x ← .out (getc m (c + n))
        if x = 0 then .out (.ok ()) else splitLoop p m sep n fuel (c + n)

/-- `vt_str_split`, str.c:927-989; `ps` is the list passed in, if any. -/
def split (fuel : Nat) (ps : Option Nat) (s : Nat) (sep : Mem) : Prog (Option Nat) := do
  let a ← fields s
  let k ← .out (Str.canFind fuel a sep)
  if k = 0 then .out (.ok none) else do
    let p ← (match ps with
      | none => make false (.plist (wadd k 1))
      | some p => do
        let l ← fields p
        if hasSpace l < wadd k 1 then do
          call p (.plReserve (wsub (wadd k 1) (hasSpace l)))
          .out (.ok p)
        else .out (.ok p))
    call p .plClear
    let n ← .out (strlen sep)
    splitLoop p a.mem sep n fuel 0
    .out (.ok (some p))

/-! ### Joining -/

/-- The loop of `vt_str_join`, str.c:1045-1048: `k` entries from number `i` on.  `mem` is the memory the pointers point to. -/
def joinLoop (E : Env) (mem : Ptr → Mem) (sep : Mem) (p st : Nat) : (k i : Nat) → Prog Unit
  | 0, _ => .out (.ok ())
  | k + 1, i => do
    call st (.append sep)
    let q ← get E p i
    call st (.append (mem q))
    joinLoop E mem sep p st k (i + 1)

/-- `vt_str_join`, str.c:1029-1051. -/
def join (E : Env) (mem : Ptr → Mem) (s : Option Nat) (sep : Mem) (p : Nat) : Prog Nat := do
  let st ← (match s with
    | none => make false (.strCapacity defaultInit)
    | some s => .out (.ok s))
  let q ← get E p 0
  call st (.append (mem q))
  let l ← fields p
  joinLoop E mem sep p st (l.len - 1) 1
  .out (.ok st)

/-- The loop of `vt_path_build_n`, path.c:11-15. -/
def pushAll (p : Nat) : List Ptr → Prog Unit
  | [] => .out (.ok ())
  | q :: qs => do
    call p (.plPushBack q)
    pushAll p qs

/-- `vt_path_build_n`, path.c:7-25; `qs` are the variadic arguments. -/
def buildN (E : Env) (mem : Ptr → Mem) (s : Option Nat) (qs : List Ptr) : Prog Nat := do
  let p ← (match s with
    | none => make false (.plist qs.length)
    | some s => makeLike s (.plist qs.length))
  pushAll p qs
  let st ← join E mem s Path.sepZ p
  discard p
  .out (.ok st)

/-! ### Directories -/

/-- The loop of `vt_path_dir_list`, path.c:114-128. -/
def listLoop (ign : Bool) (p : Nat) : List Fs.Name → Prog Unit
  | [] => .out (.ok ())
  | n :: ns => do
    let b ← .out (Path.skip ign n)
    if b then listLoop ign p ns else do
      let d ← makeLike p (.str (Path.nameMem n))
      push p d
      listLoop ign p ns

/-- `vt_path_dir_list`, path.c:89-137; `dest` is the list passed in, if any. -/
def dirList (w : Fs.World) (dest : Option Nat) (z : Mem) (ign : Bool) : Prog (Option Nat) := do
  let t ← .out (scanZ z)
  if !Path.exists_ w t then .out (.ok none) else
    match Fs.readdir w t with
    | none => .out (.ok none)
    | some ns => do
      let p ← (match dest with
        | none => make false (.plist defaultInit)
        | some p => .out (.ok p))
      call p .plClear
      listLoop ign p ns
      .out (.ok (some p))

/-- The loop of `vt_path_dir_list_recurse`, path.c:164-191; `rec` is the recursive call.  The path passed to it is the text of `st`, which the call does
not change. -/
def recurseLoop (w : Fs.World) (ign : Bool) (z : Mem) (rec : Nat → Mem → Prog (Option Nat)) (p st : Nat) : List Fs.Name → Prog Unit
  | [] => .out (.ok ())
  | n :: ns => do
    let b ← .out (Path.skip ign n)
    if b then recurseLoop w ign z rec p st ns else do
      call st (.append z)
      call st (.append Path.sepZ)
      call st (.append (Path.nameMem n))
      let a ← fields st
      let t ← .out (Str.z a)
      let r ← (if Path.isDir w t then rec p a.mem else .out (.ok (some p)))
      match r with
      | none => .out (.ok ())
      | some _ => do
        let d ← dup st
        push p d
        call st .clear
        recurseLoop w ign z rec p st ns

/-- `vt_path_dir_list_recurse`, path.c:139-203. -/
def dirListRecurse (w : Fs.World) (ign : Bool) : (fuel : Nat) → (dest : Option Nat) → (z : Mem) → Prog (Option Nat)
  | 0, _, _ => .out .fuel
  | fuel + 1, dest, z => do
    let t ← .out (scanZ z)
    if !Path.exists_ w t then .out (.ok none) else
      match Fs.readdir w t with
      | none => .out (.ok none)
      | some ns => do
        let p ← (match dest with
          | none => make false (.plist defaultInit)
          | some p => .out (.ok p))
        let st ← makeLike p (.strCapacity defaultInit)
        recurseLoop w ign z (fun p z => dirListRecurse w ign fuel (some p) z) p st ns
        discard st
        .out (.ok (some p))

/-- The loop of `vt_path_dir_free`, path.c:211-214. -/
def freeLoop (p : Nat) : (fuel : Nat) → Prog Unit
  | 0 => .out .fuel
  | fuel + 1 => do
    let q ← slide p
    if q = 0 then .out (.ok ()) else do
      let x ← target q
      discard x
      freeLoop p fuel

/-- `vt_path_dir_free`, path.c:205-219. -/
def dirFree (fuel p : Nat) : Prog Unit := do
  let l ← fields p
  if l.len ≠ 0 then do
    freeLoop p fuel
    discard p
  else discard p

/-- The loops of path.c:353-357 and 425-428: destroy the strings with numbers `i`, ..., `i + k - 1` of the list. -/
def freeItems (E : Env) (p : Nat) : (k i : Nat) → Prog Unit
  | 0, _ => .out (.ok ())
  | k + 1, i => do
    let q ← get E p i
    let x ← target q
    discard x
    freeItems E p k (i + 1)

/-- path.c:351-361 and 422-432: destroy all strings of a list, then the list. -/
def freeList (E : Env) (p : Nat) : Prog Unit := do
  let l ← fields p
  freeItems E p l.len 0
  discard p

/-- The loop of `vt_path_mkdir_parents`, path.c:331-341. -/
def mkdirLoop (E : Env) (p sfull : Nat) : (k i : Nat) → Fs.World → Prog Fs.World
  | 0, _, w => .out (.ok w)
  | k + 1, i, w => do
    let q ← get E p i
    let x ← target q
    let sdir ← fields x
    call sfull (.append sdir.mem)
    call sfull (.append Path.sepZ)
    let a ← fields sfull
    let t ← .out (Str.z a)
    mkdirLoop E p sfull k (i + 1) (Path.mkdir w t).1

/-- `vt_path_mkdir_parents`, path.c:285-364. -/
def mkdirParents (E : Env) (fuel : Nat) (w : Fs.World) (z : Mem) : Prog (Fs.World × Bool) := do
  let t ← .out (scanZ z)
  if Path.exists_ w t then .out (.ok (w, true)) else do
    let s ← make false (.str z)
    let a ← fields s
    let sfull ← make false (.strCapacity (wadd a.len 1))
    let c ← .out (getc z 0)
    let _ ← (if c = 47 then call sfull (.append Path.sepZ) else .out (.ok ()))
    let dl ← split fuel none s Path.sepZ
    match dl with
    | none => do
      discard s
      discard sfull
      .out (.ok (w, false))
    | some p => do
      let l ← fields p
      let w ← mkdirLoop E p sfull l.len 0 w
      discard s
      discard sfull
      freeList E p
      .out (.ok (w, true))

/-- The loop of `vt_path_rmdir_recurse`, path.c:410-418, and line 420. -/
def rmdirLoop (t : List UInt8) (p : Nat) : (fuel : Nat) → Fs.World → Prog (Fs.World × Bool)
  | 0, _ => .out .fuel
  | fuel + 1, w => do
    let q ← slide p
    if q = 0 then .out (.ok ((Path.rmdir w t).1, true)) else do
      let x ← target q
      let a ← fields x
      let u ← .out (Str.z a)
      let r := if Path.isDir w u then Path.rmdir w u else Path.remove w u
      if r.2 then rmdirLoop t p fuel r.1 else .out (.ok (r.1, false))

/-- `vt_path_rmdir_recurse`, path.c:385-435.  `fuel` bounds the depth of the directories, the number of entries bounds the loop. -/
def rmdirRecurse (E : Env) (fuel : Nat) (w : Fs.World) (z : Mem) : Prog (Fs.World × Bool) := do
  let t ← .out (scanZ z)
  if !Path.exists_ w t then .out (.ok (w, false)) else do
    let dl ← dirListRecurse w false fuel none z
    match dl with
    | none => .out (.ok (Path.rmdir w t))
    | some p => do
      let l ← fields p
      let r ← (if l.len = 0 then .out (.ok (Path.rmdir w t)) else rmdirLoop t p (l.len + 1) w)
      freeList E p
      .out (.ok r)

/-! ### Files and parts of strings -/

/-- `vt_file_read`, fileio.c:3-54, and `vt_file_readb`, fileio.c:56-102. -/
def fileRead (w : Fs.World) (z : Mem) (tracked : Bool) : Prog (Option Nat) := do
  let t ← .out (scanZ z)
  match Fs.openR w t with
  | none => .out (.ok none)
  | some d => do
    let size := Path.fileSize w t
    if size < 0 then .out (.ok none) else do
      let s ← make tracked (.strLen size.toNat)
      let a ← fields s
      call s (.fread d)
      if min a.len d.length ≠ a.len then do
        discard s
        .out (.ok none)
      else .out (.ok (some s))

/-- `vt_str_pop_get_first`, str.c:1084-1128; `sr` is the destination, if any. -/
def popGetFirst (sr : Option Nat) (s : Nat) (sep : Mem) : Prog (Option Nat) := do
  let n ← .out (strlen sep)
  let a ← fields s
  if a.len = 0 ∨ n = 0 then .out (.ok sr) else do
    let t ← .out (strstrAt a.mem 0 sep)
    match t with
    | none => .out (.ok sr)
    | some i => do
      let tl ← .out (strlenAt a.mem i)
      let copyLen := wsub a.len tl
      if copyLen = 0 then .out (.ok sr) else do
        let x ← (match sr with
          | none => make false (.strLen copyLen)
          | some x => .out (.ok x))
        let b ← fields x
        let _ ← (if b.len < copyLen then call x (.reserve (wsub copyLen b.len)) else .out (.ok ()))
        call x .clear
        call x (.appendN a.mem copyLen)
        call s (.remove 0 (wadd copyLen n))
        .out (.ok (some x))

/-- `vt_str_pop_get_last`, str.c:1130-1186. -/
def popGetLast (fuel : Nat) (sr : Option Nat) (s : Nat) (sep : Mem) : Prog (Option Nat) := do
  let n ← .out (strlen sep)
  let a ← fields s
  if a.len = 0 ∨ n = 0 then .out (.ok sr) else do
    let t ← .out (strstrAt a.mem 0 sep)
    match t with
    | none => .out (.ok sr)
    | some i => do
      let l ← .out (Str.lastInstance a.mem sep n fuel i)
      let tl ← .out (strlenAt a.mem l)
      let copyLen := wsub tl n
      if copyLen = 0 then .out (.ok sr) else do
        let x ← (match sr with
          | none => make false (.strLen copyLen)
          | some x => .out (.ok x))
        let b ← fields x
        let _ ← (if b.len < copyLen then call x (.reserve (wadd (wsub copyLen b.len) 1)) else .out (.ok ()))
        call x .clear
        call x (.appendN (a.mem.drop (l + n)) copyLen)
        call s (.remove (wsub (wsub a.len copyLen) n) (wadd copyLen n))
        .out (.ok (some x))

end Vita.Own
