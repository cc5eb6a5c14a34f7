import Verif.Model.Fs
import Verif.Model.PathText
/-!
# Model of src/vita/system/path.c: functions on the file system

The functions take the state of the file system and return the new one.  Debug messages (`VT_DEBUG_PRINTF`) are not modelled.  A list of
string objects is represented by the strings; its own storage and the temporary strings are in `Model/OwnerLib.lean`, and `closedir` in `Model/Handles.lean`;
the destruction of strings and lists has no effect here.
-/

namespace Vita.Path
open Fs

/-- `vt_path_exists`, path.c:31-37. -/
def exists_ (w : World) (t : List UInt8) : Bool := (stat w t).isSome

/-- `vt_path_is_dir`, path.c:39-46. -/
def isDir (w : World) (t : List UInt8) : Bool := decide (stat w t = some .dir)

/-- `vt_path_is_file`, path.c:48-55. -/
def isFile (w : World) (t : List UInt8) : Bool :=
  match stat w t with
  | some (.file _) => true
  | _ => false

/-- `vt_path_get_file_size`, path.c:57-87, for anything but a directory (whose size is up to the file system, here 4096). -/
def fileSize (w : World) (t : List UInt8) : Int :=
  match stat w t with
  | none => -1
  | some (.file d) => d.length
  | some _ => 4096

/-- ".". -/
def dotZ : Mem := [some 46, some 0]
/-- "..". -/
def dotdotZ : Mem := [some 46, some 46, some 0]

/-- The memory of `d_name`. -/
def nameMem (n : Name) : Mem := n.map some ++ [some 0]

/-- Is the entry skipped, path.c:116-119 and 166-169? -/
def skip (ignoreDotFiles : Bool) (n : Name) : Out Bool := do
  let c ← getc (nameMem n) 0
  if ignoreDotFiles = true ∧ c = 46 then .ok true else do
    let a ← Str.equalsZ (nameMem n) dotZ
    if a then .ok true else Str.equalsZ (nameMem n) dotdotZ

/-- The loop of `vt_path_dir_list`, path.c:114-128. -/
def listLoop (E : Env) (ign : Bool) : List Name → (pl : List Arr) → Out (List Arr)
  | [], pl => .ok pl
  | n :: ns, pl => do
    let b ← skip ign n
    if b then listLoop E ign ns pl else do
      let d ← Str.create E (nameMem n)
      listLoop E ign ns (pl ++ [d])

/-- `vt_path_dir_list`, path.c:89-137.  A list passed in is cleared first, so it does not matter. -/
def dirList (E : Env) (w : World) (z : Mem) (ign : Bool) : Out (Option (List Arr)) := do
  let t ← scanZ z
  if !exists_ w t then .ok none else
    match readdir w t with
    | none => .ok none
    | some ns => do
      let r ← listLoop E ign ns []
      .ok (some r)

/-- The loop of `vt_path_dir_list_recurse`, path.c:164-193; `rec` is the recursive call, which leaves the list alone if it returns NULL. -/
def recurseLoop (E : Env) (w : World) (ign : Bool) (z : Mem) (rec : List Arr → Mem → Out (Option (List Arr))) :
    List Name → (st : Arr) → (pl : List Arr) → Out (List Arr)
  | [], _, pl => .ok pl
  | n :: ns, st, pl => do
    let b ← skip ign n
    if b then recurseLoop E w ign z rec ns st pl else do
      let st ← Str.append E st z
      let st ← Str.append E st sepZ
      let st ← Str.append E st (nameMem n)
      let t ← Str.z st
      let r ← (if isDir w t then rec pl st.mem else .ok (some pl))
      match r with
      | none => .ok pl
      | some pl => do
        let d ← Str.dup E st
        let st ← Str.clear st
        recurseLoop E w ign z rec ns st (pl ++ [d])

/-- `vt_path_dir_list_recurse`, path.c:139-203; `pl` is the list passed in. -/
def dirListRecurse (E : Env) (w : World) (ign : Bool) : (fuel : Nat) → (pl : List Arr) → (z : Mem) → Out (Option (List Arr))
  | 0, _, _ => .fuel
  | fuel + 1, pl, z => do
    let t ← scanZ z
    if !exists_ w t then .ok none else
      match readdir w t with
      | none => .ok none
      | some ns => do
        let st ← Str.createCapacity E defaultInit
        let r ← recurseLoop E w ign z (dirListRecurse E w ign fuel) ns st pl
        .ok (some r)

/-- `vt_path_mkdir`, path.c:261-283. -/
def mkdir (w : World) (t : List UInt8) : World × Bool :=
  if exists_ w t then (w, true) else
    match Fs.mkdir w t with
    | none => (w, false)
    | some w => (w, true)

/-- The loop of `vt_path_mkdir_parents`, path.c:332-344. -/
def mkdirLoop (E : Env) : List Arr → (sfull : Arr) → World → Out World
  | [], _, w => .ok w
  | sdir :: ds, sfull, w => do
    let sfull ← Str.append E sfull sdir.mem
    let sfull ← Str.append E sfull sepZ
    let t ← Str.z sfull
    mkdirLoop E ds sfull (mkdir w t).1

/-- `vt_path_mkdir_parents`, path.c:285-364. -/
def mkdirParents (E : Env) (fuel : Nat) (w : World) (z : Mem) : Out (World × Bool) := do
  let t ← scanZ z
  if exists_ w t then .ok (w, true) else do
    let s ← Str.create E z
    let sfull ← Str.createCapacity E (wadd s.len 1)
    let c ← getc z 0
    let sfull ← (if c = 47 then Str.append E sfull sepZ else .ok sfull)
    let dl ← Str.split E fuel s sepZ
    match dl with
    | none => .ok (w, false)
    | some l => do
      let w ← mkdirLoop E l sfull w
      .ok (w, true)

/-- `vt_path_rmdir`, path.c:366-383. -/
def rmdir (w : World) (t : List UInt8) : World × Bool :=
  if !exists_ w t then (w, false) else
    match Fs.rmdir w t with
    | none => (w, false)
    | some w => (w, true)

/-- `vt_path_remove`, path.c:437-448. -/
def remove (w : World) (t : List UInt8) : World × Bool :=
  if !exists_ w t then (w, false) else
    match Fs.remove w t with
    | none => (w, false)
    | some w => (w, true)

/-- `vt_path_rename`, path.c:450-466 (the branch that is not Windows). -/
def rename (w : World) (t1 t2 : List UInt8) : World × Bool :=
  if !exists_ w t1 then (w, false) else
    match Fs.rename w t1 t2 with
    | none => (w, false)
    | some w => (w, true)

/-- The loop of `vt_path_rmdir_recurse`, path.c:410-418, and line 419. -/
def rmdirLoop (z : List UInt8) : List Arr → World → Out (World × Bool)
  | [], w => .ok ((rmdir w z).1, true)
  | p :: ps, w => do
    let t ← Str.z p
    let r := if isDir w t then rmdir w t else remove w t
    if r.2 then rmdirLoop z ps r.1 else .ok (r.1, false)

/-- `vt_path_rmdir_recurse`, path.c:385-435. -/
def rmdirRecurse (E : Env) (fuel : Nat) (w : World) (z : Mem) : Out (World × Bool) := do
  let t ← scanZ z
  if !exists_ w t then .ok (w, false) else do
    let dl ← dirListRecurse E w false fuel [] z
    match dl with
    | none => .ok (rmdir w t)
    | some [] => .ok (rmdir w t)
    | some l => rmdirLoop t l w

end Vita.Path
