import Verif.Base.Mem
/-!
# The file system as seen through the C library

Contract of the system calls used by path.c and fileio.c, written as definitions (Linux, one process: nothing else changes the file
system).  Limits on names and numbers of entries, and access rights, are represented by the predicates of a world.
-/

namespace Vita.Fs

/-- The name of a directory entry. -/
abbrev Name := List UInt8

/-- Names from the root directory downwards. -/
abbrev Path := List Name

/-- What there is at a path. -/
inductive Kind
  | file (data : List UInt8)
  | dir
  | link (target : List UInt8)
  deriving DecidableEq

/-- The state of the file system: all nodes except the root directory, in the order in which directories list them; the working directory; which
directories and files can be opened for reading, where the process may create, remove and open for writing; how long a file can become (full
disk, quota), if there is a limit. -/
structure World where
  nodes : List (Path × Kind)
  cwd : Path := []
  readable : Path → Bool := fun _ => true
  mayCreate : Path → Bool := fun _ => true
  mayRemove : Path → Bool := fun _ => true
  mayWrite : Path → Bool := fun _ => true
  room : Path → Option Nat := fun _ => none

/-- What there is at the path `p`. -/
def kind (w : World) (p : Path) : Option Kind :=
  if p = [] then some .dir else (w.nodes.find? fun q => q.1 = p).map (·.2)

/-- The names in the directory `p`, without `.` and `..`. -/
def names (w : World) (p : Path) : List Name :=
  w.nodes.filterMap fun q => if q.1 ≠ [] ∧ q.1.dropLast = p then q.1.getLast? else none

/-- Cut a path text at its separators; `cur` is the name being read.  Empty names are dropped. -/
def compsGo : (t : List UInt8) → (cur : Name) → List Name
  | [], cur => if cur = [] then [] else [cur]
  | c :: t, cur => if c = 47 then (if cur = [] then compsGo t [] else cur :: compsGo t []) else compsGo t (cur ++ [c])

/-- The names in a path text. -/
def comps (t : List UInt8) : List Name := compsGo t []

/-- Follow the names `cs` from the directory `cur`.  A link is followed by `rec`, except as last name if `follow` is false.  The last name
need not exist. -/
def walk1 (w : World) (follow : Bool) (rec : Path → List Name → Option Path) : Path → List Name → Option Path
  | cur, [] => some cur
  | cur, c :: cs =>
    if kind w cur ≠ some .dir then none
    else if c = [46] then walk1 w follow rec cur cs
    else if c = [46, 46] then walk1 w follow rec cur.dropLast cs
    else match kind w (cur ++ [c]) with
      | none => if cs = [] then some (cur ++ [c]) else none
      | some (.link t) =>
        if cs = [] ∧ follow = false then some (cur ++ [c])
        else rec (if t.head? = some 47 then [] else cur) (comps t ++ cs)
      | some _ => walk1 w follow rec (cur ++ [c]) cs

/-- As `walk1`, following at most `links` links. -/
def walk (w : World) (follow : Bool) : (links : Nat) → Path → List Name → Option Path
  | 0 => walk1 w follow fun _ _ => none
  | links + 1 => walk1 w follow (walk w follow links)

/-- `PATH_MAX`, terminator included. -/
def maxPath : Nat := 4096

/-- Path resolution: at most 40 links are followed. -/
def resolve (w : World) (follow : Bool) (t : List UInt8) : Option Path :=
  if t = [] ∨ maxPath ≤ t.length then none
  else walk w follow 40 (if t.head? = some 47 then [] else w.cwd) (comps t)

/-- `stat`: follows links; a text ending in a separator must name a directory. -/
def stat (w : World) (t : List UInt8) : Option Kind := do
  let p ← resolve w true t
  let k ← kind w p
  if t.getLast? = some 47 ∧ k ≠ .dir then none else some k

/-- `opendir` and all results of `readdir`. -/
def readdir (w : World) (t : List UInt8) : Option (List Name) := do
  let p ← resolve w true t
  if kind w p = some .dir ∧ w.readable p = true then some ([46] :: [46, 46] :: names w p) else none

/-- The world without the node at `p`. -/
def without (w : World) (p : Path) : World := { w with nodes := w.nodes.filter fun q => q.1 ≠ p }

/-- `mkdir`. -/
def mkdir (w : World) (t : List UInt8) : Option World := do
  let p ← resolve w false t
  if kind w p = none ∧ w.mayCreate p = true then some { w with nodes := w.nodes ++ [(p, .dir)] } else none

/-- `rmdir`: an empty directory, not the root; the last name must not be `.`. -/
def rmdir (w : World) (t : List UInt8) : Option World := do
  let p ← resolve w false t
  if kind w p = some .dir ∧ p ≠ [] ∧ names w p = [] ∧ (comps t).getLast? ≠ some [46] ∧ w.mayRemove p = true then some (without w p) else none

/-- `remove`: `rmdir` for a directory, `unlink` for anything else. -/
def remove (w : World) (t : List UInt8) : Option World := do
  let p ← resolve w false t
  let k ← kind w p
  if k = .dir then rmdir w t
  else if t.getLast? ≠ some 47 ∧ w.mayRemove p = true then some (without w p) else none

/-- Where the path `r` is after what is at `p` has been moved to `q`. -/
def moved (p q r : Path) : Path := if p <+: r then q ++ r.drop p.length else r

/-- The last name of a path text cannot be renamed: there is none (the root directory), or it is `.` or `..`. -/
def fixedName (t : List UInt8) : Bool :=
  decide ((comps t).getLast? = none ∨ (comps t).getLast? = some [46] ∨ (comps t).getLast? = some [46, 46])

/-- The world after what is at `p`, with everything below, has been moved to `q`, whose node is replaced.  The rights and limits of a node go with
it.  Where a directory lists a moved entry is not determined by the contract; here it keeps its place. -/
def relocate (w : World) (p q : Path) : World :=
  { nodes := (w.nodes.filter fun n => n.1 ≠ q).map fun n => (moved p q n.1, n.2)
    cwd := moved p q w.cwd
    readable := fun r => w.readable (moved q p r)
    mayCreate := fun r => w.mayCreate (if r = q then q else moved q p r)
    mayRemove := fun r => w.mayRemove (if r = q then q else moved q p r)
    mayWrite := fun r => w.mayWrite (moved q p r)
    room := fun r => w.room (moved q p r) }

/-- May what is at `q`, if anything, be replaced by a node of kind `k`?  A directory only replaces an empty directory, anything else
only what is no directory. -/
def replaceable (w : World) (k : Kind) (q : Path) : Bool :=
  match kind w q with
  | none => w.mayCreate q
  | some k2 => w.mayRemove q && (if k = .dir then decide (k2 = .dir) && decide (names w q = []) else decide (k2 ≠ .dir))

/-- `rename`: links are not followed; a text ending in a separator must name a directory; a directory is not moved below itself; nothing is done if
both texts name the same node.  (Two names of one file do not occur: a world has no hard links.) -/
def rename (w : World) (t1 t2 : List UInt8) : Option World := do
  let p ← resolve w false t1
  let q ← resolve w false t2
  let k ← kind w p
  if fixedName t1 ∨ fixedName t2 then none
  else if (t1.getLast? = some 47 ∨ t2.getLast? = some 47) ∧ k ≠ .dir then none
  else if p = q then some w
  else if p <+: q then none
  else if w.mayRemove p = true ∧ replaceable w k q = true then some (relocate w p q)
  else none

/-- The world with other data in the file at `p`. -/
def setData (w : World) (p : Path) (d : List UInt8) : World :=
  { w with nodes := w.nodes.map fun q => if q.1 = p then (p, .file d) else q }

/-- The data of a file. -/
def dataAt (w : World) (p : Path) : List UInt8 :=
  match kind w p with
  | some (.file d) => d
  | _ => []

/-- `fopen` for reading: the bytes that can be read.  A directory can be opened, but nothing can be read from it. -/
def openR (w : World) (t : List UInt8) : Option (List UInt8) := do
  let p ← resolve w true t
  let _ ← stat w t
  if w.readable p = true then some (dataAt w p) else none

/-- `fopen` for writing or appending: the new state and the path of the file. -/
def openW (w : World) (append : Bool) (t : List UInt8) : Option (World × Path) := do
  let p ← resolve w true t
  if t.getLast? = some 47 then none else
    match kind w p with
    | none => if w.mayCreate p = true then some ({ w with nodes := w.nodes ++ [(p, .file [])] }, p) else none
    | some (.file _) => if w.mayWrite p = true then some (if append then w else setData w p [], p) else none
    | some _ => none

/-- Writing at the end of the file at `p`; what does not fit is lost. -/
def put (w : World) (p : Path) (bs : List UInt8) : World :=
  match w.room p with
  | none => setData w p (dataAt w p ++ bs)
  | some n => setData w p (dataAt w p ++ bs.take (n - (dataAt w p).length))

end Vita.Fs
