import Verif.Model.Plist
import Verif.Model.Str
import Verif.Model.Mallocator
/-!
# Who owns which memory: containers over the heap

The models of the containers (`Model/Vec.lean`, `Plist.lean`, `Str.lean`) treat each container's block by itself.  Here the same calls are
followed on the heap of the whole program (`Model/Mallocator.lean`): which blocks are requested, moved and given back, and through which allocator.
A container has two blocks, its header (`struct VitaBaseArrayType`) and its buffer; both come from the system heap or from one tracking
allocator (`alloctr` in the header).
-/

namespace Vita.Own
open Mal

/-- The memory of the program: the heap, and the state of a tracking allocator. -/
structure Sys where
  heap : Heap
  mal : T

/-- `alloctr ? VT_ALLOCATOR_ALLOC(alloctr, n) : VT_CALLOC(n)`, as in common.c:4-7, vec.c:12, plist.c:11, str.c:43. -/
def alloc (E : Env) (A : Allocator) (S : Sys) (tracked : Bool) (n : Nat) : Out (Sys × Nat) :=
  if tracked then do
    let (m, H, p) ← Mal.alloc E A S.heap S.mal n
    .ok (⟨H, m⟩, p)
  else do
    let (H, p) ← hCalloc E A S.heap n
    .ok ({ S with heap := H }, p)

/-- `alloctr ? VT_ALLOCATOR_REALLOC(alloctr, p, n) : VT_REALLOC(p, n)`, as in vec.c:82-84, 106-108, 126-128, plist.c:77-79, 96-98, 117-119,
str.c:168-170, 199-201, 218-220. -/
def realloc (E : Env) (A : Allocator) (S : Sys) (tracked : Bool) (p n : Nat) : Out (Sys × Nat) :=
  if tracked then do
    let (m, H, q) ← Mal.realloc E A S.heap S.mal p n
    .ok (⟨H, m⟩, q)
  else do
    let (H, q) ← hRealloc E A S.heap p n
    .ok ({ S with heap := H }, q)

/-- `if (alloctr) VT_ALLOCATOR_FREE(alloctr, p); else VT_FREE(p);`, as in common.c:18-22, vec.c:27-31, plist.c:26-30, str.c:77-81. -/
def free (E : Env) (S : Sys) (tracked : Bool) (p : Nat) : Out Sys :=
  if tracked then do
    let (m, H) ← Mal.free E S.heap S.mal p
    .ok ⟨H, m⟩
  else do
    let H ← hFree S.heap p
    .ok { S with heap := H }

/-- The kinds of containers (in C all three are the same structure). -/
inductive Kind
  | vec
  | plist
  | str
  deriving DecidableEq, Repr

/-- A live container: addresses of its header and buffer, whether its `alloctr` is the tracking allocator, and its contents. -/
structure Obj where
  kind : Kind
  hdr : Nat
  buf : Nat
  tracked : Bool
  arr : Arr
  deriving DecidableEq

/-! ### Memory requests of the calls -/

/-- What a call on a container does with memory:
* `own n`: the buffer is reallocated to `n` bytes, through the allocator of the container;
* `tmp n`: a temporary block from the system heap, given back before the call ends (`vt_gswap`, core.c:122-130);
* `tmpStr n k inner`: a temporary string with the allocator of the container, whose buffer of `n` bytes is reallocated to `k` bytes; while it is
  there, the buffer of the container may be reallocated to `inner` bytes; then the temporary string is destroyed (`vt_str_insertf`, str.c:430-442). -/
inductive Req
  | own (n : Nat)
  | tmp (n : Nat)
  | tmpStr (n k : Nat) (inner : List Nat)
  deriving DecidableEq, Repr

/-- The requests that follow when the earlier part of a call has returned. -/
def andThen (r : Out α) (f : α → List Req) : List Req :=
  match r with
  | .ok a => f a
  | _ => []

/-- vec.c:168-171, 314-317 with vec.c:106-108; plist.c:137-140, 211-214 with plist.c:77-79. -/
def growReq (v : Arr) : List Req :=
  if hasSpace v = 0 then [.own (wmul (wadd v.cap (wmul v.cap growthRate)) v.elsize)] else []

/-- str.c:349-352, 379-382, 457-460 with str.c:199-201. -/
def strGrowReq (s : Arr) (n : Nat) : List Nat :=
  if hasSpace s < n then [wmul (wadd (wadd s.cap (wsub n (hasSpace s))) 1) s.elsize] else []

/-- `vt_str_append`, str.c:315-322; `vt_str_insert`, str.c:364-395: the length of the text decides. -/
def strTextReq (s : Arr) (z : Mem) : List Req := andThen (strlen z) fun n => (strGrowReq s n).map .own

/-- `vt_str_insertf`, str.c:397-447. -/
def insertfReq (E : Env) (s : Arr) (out : List UInt8) : List Req :=
  if out.length < tmpBufferSize - 1 then
    andThen (writeN (List.replicate tmpBufferSize (some 0)) 0 (out.map some ++ [some 0])) fun buf => strTextReq s buf
  else
    let n := out.length
    [.tmpStr (wmul (wadd n 1) 1) (wmul (wadd (wadd n (wadd n 1)) 1) 1)
      (match (do let t ← Str.createLen E n; let t ← Str.vfmtSet E t out; strlen t.mem) with
       | .ok l => strGrowReq s l
       | _ => [])]

/-- str.c:663-670, 696-703, 730-737 (see `Str.replaceAt`). -/
def replaceAtReq (E : Env) (s : Arr) (i subLen rsubLen : Nat) (rsub : Mem) : List Req :=
  if subLen = rsubLen then [] else andThen (Str.remove E s i subLen) fun s => strTextReq s rsub

/-- The loop of `vt_str_replace`, str.c:660-676. -/
def replaceLoopReq (E : Env) (sub rsub : Mem) (n r : Nat) : (fuel : Nat) → Arr → (p : Nat) → List Req
  | 0, _, _ => []
  | fuel + 1, s, p =>
    andThen (strstrAt s.mem p sub) fun q => match q with
      | none => []
      | some i => replaceAtReq E s i n r rsub ++
          andThen (Str.replaceAt E s i n r rsub) fun s => replaceLoopReq E sub rsub n r fuel s (i + r)

/-- The calls on a container that has been created (`fuel` bounds the loops of the model).  `plSlide` is `vt_plist_slide_front`; `fread d` is the
C function `fread` called with the buffer and length of a string, for a file with the contents `d` (fileio.c:39). -/
inductive Call
  | vecPushBack (x : Mem) | vecPushFront (x : Mem) | vecInsert (x : Mem) (i : Nat) | vecSet (x : Mem) (i : Nat)
  | vecRemove (i : Nat) (rs : Strategy) | vecPop | vecPopGet | vecClear | vecReserve (n : Nat) | vecResize (n : Nat) | vecShrink
  | plPushBack (q : Ptr) | plPushFront (q : Ptr) | plInsert (q : Ptr) (i : Nat) | plSet (q : Ptr) (i : Nat)
  | plRemove (i : Nat) (rs : Strategy) | plRemoveElement (q : Ptr) (rs : Strategy) | plPop | plPopGet | plClear | plReserve (n : Nat)
  | plResize (n : Nat) | plShrink | plSlide
  | append (z : Mem) | appendN (z : Mem) (n : Nat) | appendf (out : List UInt8) | insert (z : Mem) (i : Nat)
  | insertN (z : Mem) (i n : Nat) | insertf (i : Nat) (out : List UInt8) | insertBefore (sub z : Mem) | insertAfter (sub z : Mem)
  | remove (i n : Nat) | removeFirst (z : Mem) | removeLast (fuel : Nat) (z : Mem) | removeAll (fuel : Nat) (z : Mem) | removeC (c : Mem)
  | replace (fuel : Nat) (sub rsub : Mem) | replaceFirst (sub rsub : Mem) | replaceLast (fuel : Nat) (sub rsub : Mem)
  | replaceC (c r : Mem) | set (z : Mem) | setN (z : Mem) (n : Nat) | setAt (z : Mem) (i : Nat) | setC (c : UInt8) (i : Nat)
  | strip (fuel : Nat) | stripPunct (fuel : Nat) | stripC (fuel : Nat) (c : Mem) | toUpper | toLower | validateLen
  | clear | reserve (n : Nat) | resize (n : Nat) | shrink | fread (d : List UInt8)

/-- The kind of container a call is made for. -/
def Call.kind : Call → Kind
  | vecPushBack _ | vecPushFront _ | vecInsert _ _ | vecSet _ _ | vecRemove _ _ | vecPop | vecPopGet | vecClear | vecReserve _ | vecResize _
  | vecShrink => .vec
  | plPushBack _ | plPushFront _ | plInsert _ _ | plSet _ _ | plRemove _ _ | plRemoveElement _ _ | plPop | plPopGet | plClear | plReserve _
  | plResize _ | plShrink | plSlide => .plist
  | _ => .str

/-- The effect of a call on the contents: the functions of the container models. -/
def Call.run (E : Env) (a : Arr) : Call → Out Arr
  | vecPushBack x => Vec.pushBack E a x
  | vecPushFront x => Vec.pushFront E a x
  | vecInsert x i => Vec.insert E a x i
  | vecSet x i => Vec.set E a x i
  | vecRemove i rs => Vec.remove E a i rs
  | vecPop => .ok (Vec.pop a)
  | vecPopGet => do let r ← Vec.popGet a; .ok r.1
  | vecClear => .ok (Vec.clear a)
  | vecReserve n => Vec.reserve E a n
  | vecResize n => Vec.resize E a n
  | vecShrink => Vec.shrink E a
  | plPushBack q => Plist.pushBack E a q
  | plPushFront q => Plist.pushFront E a q
  | plInsert q i => Plist.insert E a q i
  | plSet q i => Plist.set E a q i
  | plRemove i rs => Plist.remove E a i rs
  | plRemoveElement q rs => Plist.removeElement E a q rs
  | plPop => .ok (Plist.pop a)
  | plPopGet => do let r ← Plist.popGet a; .ok r.1
  | plClear => .ok (Plist.clear a)
  | plReserve n => Plist.reserve E a n
  | plResize n => Plist.resize E a n
  | plShrink => Plist.shrink E a
  | plSlide => do let r ← Plist.slideFront a; .ok r.1
  | append z => Str.append E a z
  | appendN z n => Str.appendN E a z n
  | appendf out => Str.appendf E a out
  | insert z i => Str.insert E a z i
  | insertN z i n => Str.insertN E a z i n
  | insertf i out => Str.insertf E a i out
  | insertBefore sub z => Str.insertBefore E a sub z
  | insertAfter sub z => Str.insertAfter E a sub z
  | remove i n => Str.remove E a i n
  | removeFirst z => do let r ← Str.removeFirst a z; .ok r.1
  | removeLast k z => do let r ← Str.removeLast E k a z; .ok r.1
  | removeAll k z => Str.removeAll k a z
  | removeC c => Str.removeC a c
  | replace k sub rsub => Str.replace E k a sub rsub
  | replaceFirst sub rsub => Str.replaceFirst E a sub rsub
  | replaceLast k sub rsub => Str.replaceLast E k a sub rsub
  | replaceC c r => Str.replaceC a c r
  | set z => Str.set E a z
  | setN z n => Str.setN E a z n
  | setAt z i => Str.setAt E a z i
  | setC c i => Str.setC E a c i
  | strip k => Str.strip k a
  | stripPunct k => Str.stripPunct k a
  | stripC k c => Str.stripC k a c
  | toUpper => Str.toUppercase a
  | toLower => Str.toLowercase a
  | validateLen => do let r ← Str.validateLen a; .ok r.1
  | clear => Str.clear a
  | reserve n => Str.reserve E a n
  | resize n => Str.resize E a n
  | shrink => Str.shrink E a
  | fread d => do let m ← writeN a.mem 0 ((d.take a.len).map some); .ok { a with mem := m }

/-- The memory requests of a call, in the order in which they are made.  Vectors: vec.c:76-84 (shrink), 106-108 (reserve), 120-128 (resize),
363 (fast removal); lists: plist.c:77-79, 91-98, 111-119; strings: str.c:163-170 (shrink), 199-201 (reserve), 218-220 (resize). -/
def Call.reqs (E : Env) (a : Arr) : Call → List Req
  | vecPushBack _ | vecPushFront _ => growReq a
  | vecInsert _ _ => growReq a
  | vecRemove _ .fast => [.tmp a.elsize]
  | vecReserve n => [.own (wmul (wadd a.cap n) a.elsize)]
  | vecResize n => if n = a.cap then [] else [.own (wmul n a.elsize)]
  | vecShrink => if a.len = a.cap then [] else [.own (wmul a.len a.elsize)]
  | plPushBack _ | plPushFront _ | plInsert _ _ => growReq a
  | plReserve n => [.own (wmul (wadd a.cap n) a.elsize)]
  | plResize n => if n = a.cap then [] else [.own (wmul n a.elsize)]
  | plShrink => if a.len = a.cap then [] else [.own (wmul a.len a.elsize)]
  | append z => strTextReq a z
  | appendN _ n => (strGrowReq a n).map .own
  | appendf out => (strGrowReq a out.length).map .own
  | insert z _ => strTextReq a z
  | insertN _ _ n => (strGrowReq a n).map .own
  | insertf _ out => insertfReq E a out
  | insertBefore sub z => andThen (Str.indexFind a sub) fun idx => if idx < 0 then [] else strTextReq a z
  | insertAfter sub z => andThen (Str.indexFind a sub) fun idx => if idx < 0 then [] else strTextReq a z
  | replace k sub rsub => andThen (strlen sub) fun n => andThen (strlen rsub) fun r =>
      if n = 0 ∨ r = 0 then [] else replaceLoopReq E sub rsub n r k a 0
  | replaceFirst sub rsub => andThen (strlen sub) fun n => andThen (strlen rsub) fun r =>
      if n = 0 ∨ r = 0 then [] else andThen (Str.find a sub) fun q => match q with
        | none => []
        | some i => replaceAtReq E a i n r rsub
  | replaceLast k sub rsub => andThen (strlen sub) fun n => andThen (strlen rsub) fun r =>
      if n = 0 ∨ r = 0 then [] else andThen (strstrAt a.mem 0 sub) fun p => match p with
        | none => []
        | some p => andThen (Str.lastInstance a.mem sub n k p) fun l => replaceAtReq E a l n r rsub
  | setAt z i => andThen (strlen z) fun n => andThen (Str.remove E a i (wsub a.len i)) fun s => (strGrowReq s n).map .own
  | reserve n => [.own (wmul (wadd (wadd a.cap n) 1) a.elsize)]
  | resize n => [.own (wmul (wadd n 1) a.elsize)]
  | shrink => if a.len = a.cap then [] else [.own (wmul (wadd a.len 1) a.elsize)]
  | _ => []

/-- Reallocations of one buffer, one after the other. -/
def reallocs (E : Env) (A : Allocator) (tracked : Bool) : Sys → Nat → List Nat → Out (Sys × Nat)
  | S, p, [] => .ok (S, p)
  | S, p, n :: ns => do
    let (S, p) ← realloc E A S tracked p n
    reallocs E A tracked S p ns

/-- Perform the requests of a call on the heap; the result has the new address of the buffer. -/
def perform (E : Env) (A : Allocator) (tracked : Bool) : Sys → Nat → List Req → Out (Sys × Nat)
  | S, p, [] => .ok (S, p)
  | S, p, .own n :: rs => do
    let (S, p) ← realloc E A S tracked p n
    perform E A tracked S p rs
  | S, p, .tmp n :: rs => do
    let (S, t) ← alloc E A S false n
    let S ← free E S false t
    perform E A tracked S p rs
  | S, p, .tmpStr n k inner :: rs => do
    let (S, h) ← alloc E A S tracked arrStructSize
    let (S, b) ← alloc E A S tracked n
    let (S, b) ← realloc E A S tracked b k
    let (S, p) ← reallocs E A tracked S p inner
    let S ← free E S tracked b
    let S ← free E S tracked h
    perform E A tracked S p rs

/-! ### Creation and destruction -/

/-- The functions that create containers. -/
inductive Make
  | vec (n elsize : Nat)
  | plist (n : Nat)
  | strLen (n : Nat)
  | strCapacity (n : Nat)
  | str (z : Mem)
  deriving DecidableEq

/-- The kind of the new container. -/
def Make.kind : Make → Kind
  | vec _ _ => .vec
  | plist _ => .plist
  | _ => .str

/-- The contents of the new container: the functions of the container models. -/
def Make.run (E : Env) : Make → Out Arr
  | vec n es => Vec.create E n es
  | plist n => Plist.create E n
  | strLen n => Str.createLen E n
  | strCapacity n => Str.createCapacity E n
  | str z => Str.create E z

/-- The number of bytes requested for the buffer, vec.c:12, plist.c:11, str.c:43. -/
def Make.bytes : Make → Nat
  | vec n es => wmul n es
  | plist n => wmul n 8
  | strLen n => wmul (wadd n 1) 1
  | strCapacity n => wmul (wadd n 1) 1
  | str z => match strlen z with
    | .ok n => wmul (wadd n 1) 1
    | _ => 0

/-- The two requests of a creating function: the header (`vt_array_new`, common.c:3-11), then the buffer. -/
def new (E : Env) (A : Allocator) (S : Sys) (tracked : Bool) (kind : Kind) (bytes : Nat) (arr : Arr) : Out (Sys × Obj) := do
  let (S, h) ← alloc E A S tracked arrStructSize
  let (S, b) ← alloc E A S tracked bytes
  .ok (S, ⟨kind, h, b, tracked, arr⟩)

/-- `vt_vec_destroy`, vec.c:21-38; `vt_plist_destroy`, plist.c:20-37; `vt_str_destroy`, str.c:66-87 (a view is only left alone), with `vt_array_free`,
common.c:13-26. -/
def destroy (E : Env) (S : Sys) (o : Obj) : Out Sys :=
  if o.kind = .str ∧ o.arr.isView = true then .ok S else do
    let S ← free E S o.tracked o.buf
    free E S o.tracked o.hdr

/-! ### Programs -/

/-- What a program does with containers; containers are numbered in the order of their creation. -/
inductive Cmd
  | make (tracked : Bool) (m : Make)
  /-- Creation with the allocator of the container `i` (`x->alloctr`). -/
  | makeLike (i : Nat) (m : Make)
  | call (i : Nat) (c : Call)
  /-- `vt_vec_dup`, `vt_plist_dup` with an allocator argument; `vt_str_dup` uses the allocator of the string. -/
  | dup (i : Nat) (tracked : Bool)
  | destroy (i : Nat)

/-- The state of a program: memory and containers (`none` after their destruction). -/
structure St where
  sys : Sys
  objs : List (Option Obj)

/-- The live container with number `i`; anything else is a dangling pointer. -/
def St.live (s : St) (i : Nat) : Out Obj :=
  match s.objs[i]? with
  | some (some o) => .ok o
  | _ => .ub

/-- The copying function for a container, and the size of the new buffer: vec.c:46, plist.c:45, str.c:94 with str.c:26-27, 43. -/
def dupOf (E : Env) (o : Obj) : Out Arr × Nat :=
  match o.kind with
  | .vec => (Vec.dup E o.arr, wmul o.arr.len o.arr.elsize)
  | .plist => (Plist.dup E o.arr, wmul o.arr.len 8)
  | .str => (Str.dup E o.arr, Make.bytes (.str o.arr.mem))

/-- One command.  Calls for another kind of container are outside of the model (undefined here). -/
def step (E : Env) (A : Allocator) (s : St) : Cmd → Out St
  | .make tr m => do
    let arr ← m.run E
    let (S, o) ← new E A s.sys tr m.kind m.bytes arr
    .ok ⟨S, s.objs ++ [some o]⟩
  | .makeLike i m => do
    let l ← s.live i
    let arr ← m.run E
    let (S, o) ← new E A s.sys l.tracked m.kind m.bytes arr
    .ok ⟨S, s.objs ++ [some o]⟩
  | .call i c => do
    let o ← s.live i
    if c.kind ≠ o.kind then .ub else do
      let arr ← c.run E o.arr
      let (S, p) ← perform E A o.tracked s.sys o.buf (c.reqs E o.arr)
      .ok ⟨S, s.objs.set i (some { o with buf := p, arr := arr })⟩
  | .dup i tr => do
    let o ← s.live i
    let arr ← (dupOf E o).1
    let (S, d) ← new E A s.sys (if o.kind = .str then o.tracked else tr) o.kind (dupOf E o).2 arr
    .ok ⟨S, s.objs ++ [some d]⟩
  | .destroy i => do
    let o ← s.live i
    let S ← destroy E s.sys o
    .ok ⟨S, s.objs.set i none⟩

/-- A program: one command after the other. -/
def run (E : Env) (A : Allocator) : St → List Cmd → Out St
  | s, [] => .ok s
  | s, c :: cs => do
    let s ← step E A s c
    run E A s cs

/-! ### Strings with a foreign buffer, and a lost string -/

/-- `vt_str_take_ownership`, str.c:97-115, on the heap: only the header is requested; the buffer at `p` with the contents `z` is a block of the system
heap that exists already. -/
def take (E : Env) (A : Allocator) (S : Sys) (tracked : Bool) (p : Nat) (z : Mem) : Out (Sys × Obj) := do
  let arr ← Str.takeOwnership E z
  let (S, h) ← alloc E A S tracked arrStructSize
  .ok (S, ⟨.str, h, p, tracked, arr⟩)

/-- `vt_str_split_between`, str.c:991-1027, without a destination, on the heap (`none`: NULL is returned). -/
def splitBetween (E : Env) (A : Allocator) (S : Sys) (z zl zr : Mem) : Out (Sys × Option Obj) := do
  let l ← strstrAt z 0 zl
  match l with
  | none => .ok (S, none)
  | some l => do
    let r ← strstrAt z 0 zr
    match r with
    | none => .ok (S, none)
    | some r => do
      let arr ← Str.createCapacity E defaultInit
      let (S, o) ← new E A S false .str (Make.bytes (.strCapacity defaultInit)) arr
      let arr ← Str.clear arr
      if l < r then do
        let n ← strlen zl
        let k := wsub (r - l) n
        let arr' ← Str.resize E arr k
        let (S, p) ← perform E A false S o.buf (Call.reqs E arr (.resize k))
        let c := Call.appendN (z.drop (wsub r k)) k
        let arr'' ← c.run E arr'
        let (S, p) ← perform E A false S p (c.reqs E arr')
        .ok (S, some { o with buf := p, arr := arr'' })
      else .ok (S, none)

end Vita.Own
