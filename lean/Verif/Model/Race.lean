import Verif.Model.FileIo
/-!
# Other processes

The functions of `Model/PathFs.lean` and the reading functions of `Model/FileIo.lean` once more, while other processes may change the file system before each call of the system.  Reading a directory
gives its names at one moment; a file is read at one moment.
-/

namespace Vita.Race
open Fs

/-- What the other processes do to the file system before call number `i` of the system. -/
abbrev Others := Nat → World → World

/-- The number of the next call of the system, and the file system. -/
structure Now where
  count : Nat
  world : World

/-- The moment of the next call of the system. -/
def next (o : Others) (s : Now) : Now := { count := s.count + 1, world := o s.count s.world }

/-- `vt_path_exists`, path.c:31-37. -/
def exists_ (o : Others) (t : List UInt8) (s : Now) : Bool × Now := (Path.exists_ (next o s).world t, next o s)

/-- `vt_path_is_dir`, path.c:39-46. -/
def isDir (o : Others) (t : List UInt8) (s : Now) : Bool × Now := (Path.isDir (next o s).world t, next o s)

/-- `vt_path_get_file_size`, path.c:57-87. -/
def fileSize (o : Others) (t : List UInt8) (s : Now) : Int × Now :=
  let (e, s) := exists_ o t s
  if !e then (-1, s) else (Path.fileSize (next o s).world t, next o s)

/-- A call of the system that changes the file system or fails. -/
def change (o : Others) (f : World → Option World) (s : Now) : Bool × Now :=
  match f (next o s).world with
  | none => (false, next o s)
  | some w => (true, { next o s with world := w })

/-- `vt_path_mkdir`, path.c:261-283. -/
def mkdir (o : Others) (t : List UInt8) (s : Now) : Bool × Now :=
  let (e, s) := exists_ o t s
  if e then (true, s) else change o (Fs.mkdir · t) s

/-- `vt_path_rmdir`, path.c:366-383. -/
def rmdir (o : Others) (t : List UInt8) (s : Now) : Bool × Now :=
  let (e, s) := exists_ o t s
  if !e then (false, s) else change o (Fs.rmdir · t) s

/-- `vt_path_remove`, path.c:437-448. -/
def remove (o : Others) (t : List UInt8) (s : Now) : Bool × Now :=
  let (e, s) := exists_ o t s
  if !e then (false, s) else change o (Fs.remove · t) s

/-- `vt_path_rename`, path.c:450-466. -/
def rename (o : Others) (t1 t2 : List UInt8) (s : Now) : Bool × Now :=
  let (e, s) := exists_ o t1 s
  if !e then (false, s) else change o (Fs.rename · t1 t2) s

/-- `vt_file_read`, fileio.c:3-54: `d` is what the file that was opened holds at the moment when it is read. -/
def read (E : Env) (o : Others) (z : Mem) (d : List UInt8) (s : Now) : Out (Option Arr × Now) := do
  let t ← scanZ z
  let s := next o s
  match openR s.world t with
  | none => .ok (none, s)
  | some _ => do
    let (size, s) := fileSize o t s
    if size < 0 then .ok (none, s) else do
      let b ← Str.createLen E size.toNat
      let s := next o s
      let r ← FileIo.fread b.mem b.len d
      if r.1 ≠ b.len then .ok (none, s) else .ok (some { b with mem := r.2 }, s)

/-- `vt_file_read_to_buffer`, fileio.c:104-148, likewise. -/
def readToBuffer (E : Env) (o : Others) (z : Mem) (buf : Mem) (n : Nat) (d : List UInt8) (s : Now) : Out ((Bool × Mem) × Now) := do
  let t ← scanZ z
  dassert E (n > 0)
  let s := next o s
  match openR s.world t with
  | none => .ok ((false, buf), s)
  | some _ => do
    let (size, s) := fileSize o t s
    if size < 0 then .ok ((false, buf), s) else do
      let k := if n ≤ size.toNat then n else size.toNat
      let s := next o s
      let r ← FileIo.fread buf k d
      if r.1 ≠ k then .ok ((false, r.2), s) else .ok ((true, r.2), s)

/-- `vt_path_dir_list`, path.c:89-137: the directory is read at one moment. -/
def dirList (E : Env) (o : Others) (z : Mem) (ign : Bool) (s : Now) : Out (Option (List Arr) × Now) := do
  let t ← scanZ z
  let (e, s) := exists_ o t s
  if !e then .ok (none, s) else do
    let s := next o s
    match readdir s.world t with
    | none => .ok (none, s)
    | some ns => do
      let r ← Path.listLoop E ign ns []
      .ok (some r, s)

/-- The loop of `vt_path_dir_list_recurse`, path.c:164-193. -/
def recurseLoop (E : Env) (o : Others) (ign : Bool) (z : Mem) (rec : List Arr → Mem → Now → Out (Option (List Arr) × Now)) :
    List Name → (st : Arr) → (pl : List Arr) → Now → Out (List Arr × Now)
  | [], _, pl, s => .ok (pl, s)
  | n :: ns, st, pl, s => do
    let b ← Path.skip ign n
    if b then recurseLoop E o ign z rec ns st pl s else do
      let st ← Str.append E st z
      let st ← Str.append E st Path.sepZ
      let st ← Str.append E st (Path.nameMem n)
      let t ← Str.z st
      let (b, s) := isDir o t s
      let r ← (if b then rec pl st.mem s else .ok (some pl, s))
      match r with
      | (none, s) => .ok (pl, s)
      | (some pl, s) => do
        let d ← Str.dup E st
        let st ← Str.clear st
        recurseLoop E o ign z rec ns st (pl ++ [d]) s

/-- `vt_path_dir_list_recurse`, path.c:139-203. -/
def dirListRecurse (E : Env) (o : Others) (ign : Bool) : (fuel : Nat) → (pl : List Arr) → (z : Mem) → Now → Out (Option (List Arr) × Now)
  | 0, _, _, _ => .fuel
  | fuel + 1, pl, z, s => do
    let t ← scanZ z
    let (e, s) := exists_ o t s
    if !e then .ok (none, s) else do
      let s := next o s
      match readdir s.world t with
      | none => .ok (none, s)
      | some ns => do
        let st ← Str.createCapacity E defaultInit
        let (r, s) ← recurseLoop E o ign z (dirListRecurse E o ign fuel) ns st pl s
        .ok (some r, s)

/-- The loop of `vt_path_rmdir_recurse`, path.c:410-418, and line 419. -/
def rmdirLoop (o : Others) (z : List UInt8) : List Arr → Now → Out (Bool × Now)
  | [], s => .ok (true, (rmdir o z s).2)
  | p :: ps, s => do
    let t ← Str.z p
    let (b, s) := isDir o t s
    let (r, s) := if b then rmdir o t s else remove o t s
    if r then rmdirLoop o z ps s else .ok (false, s)

/-- `vt_path_rmdir_recurse`, path.c:385-435. -/
def rmdirRecurse (E : Env) (fuel : Nat) (o : Others) (z : Mem) (s : Now) : Out (Bool × Now) := do
  let t ← scanZ z
  let (e, s) := exists_ o t s
  if !e then .ok (false, s) else do
    let (dl, s) ← dirListRecurse E o false fuel [] z s
    match dl with
    | none => .ok (rmdir o t s)
    | some [] => .ok (rmdir o t s)
    | some l => rmdirLoop o t l s

/-- The loop of `vt_path_mkdir_parents`, path.c:332-344. -/
def mkdirLoop (E : Env) (o : Others) : List Arr → (sfull : Arr) → Now → Out Now
  | [], _, s => .ok s
  | sdir :: ds, sfull, s => do
    let sfull ← Str.append E sfull sdir.mem
    let sfull ← Str.append E sfull Path.sepZ
    let t ← Str.z sfull
    mkdirLoop E o ds sfull (mkdir o t s).2

/-- `vt_path_mkdir_parents`, path.c:285-364. -/
def mkdirParents (E : Env) (fuel : Nat) (o : Others) (z : Mem) (s : Now) : Out (Bool × Now) := do
  let t ← scanZ z
  let (e, s) := exists_ o t s
  if e then .ok (true, s) else do
    let b ← Str.create E z
    let sfull ← Str.createCapacity E (wadd b.len 1)
    let c ← getc z 0
    let sfull ← (if c = 47 then Str.append E sfull Path.sepZ else .ok sfull)
    let dl ← Str.split E fuel b Path.sepZ
    match dl with
    | none => .ok (false, s)
    | some l => do
      let s ← mkdirLoop E o l sfull s
      .ok (true, s)

end Vita.Race
