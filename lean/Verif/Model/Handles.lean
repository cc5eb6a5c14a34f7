import Verif.Model.Log
/-!
# Open files and directories

The functions that open something, with the handles (file descriptors) that the process has: how many it may have open at a time is limited.  Where a file or directory is opened, used
and closed is modelled here; what is read and written is as in `Model/FileIo.lean`, `Model/PathFs.lean` and `Model/Log.lean`.  Debug messages are modelled only where they are the subject.
-/

namespace Vita.Handles
open Fs

/-- The handles that are open, and how many can be open at a time. -/
structure Fds where
  limit : Nat
  open_ : List Nat
  deriving DecidableEq

/-- The number of a new handle: one that is not in use. -/
def fresh (f : Fds) : Nat := f.open_.foldr max 0 + 1

/-- `fopen` and `opendir` fail if too many handles are open. -/
def acquire (f : Fds) : Option (Nat × Fds) := if f.open_.length < f.limit then some (fresh f, { f with open_ := fresh f :: f.open_ }) else none

/-- Reading from a file or directory, or writing to it: undefined unless it is open. -/
def use (f : Fds) (h : Nat) : Out Unit := if h ∈ f.open_ then .ok () else .ub

/-- `fclose` and `closedir`: undefined unless it is open. -/
def close (f : Fds) (h : Nat) : Out Fds := if h ∈ f.open_ then .ok { f with open_ := f.open_.erase h } else .ub

/-- `vt_file_read` and `vt_file_readb`, fileio.c:3-54 and 56-102. -/
def read (E : Env) (w : World) (z : Mem) (f : Fds) : Out (Option Arr × Fds) := do
  let t ← scanZ z
  match openR w t, acquire f with
  | some d, some (h, f) => do
    let size := Path.fileSize w t
    if size < 0 then do
      let f ← close f h
      .ok (none, f)
    else do
      let s ← Str.createLen E size.toNat
      use f h
      let r ← FileIo.fread s.mem s.len d
      let o := if r.1 ≠ s.len then none else some { s with mem := r.2 }
      let f ← close f h
      .ok (o, f)
  | _, _ => .ok (none, f)

/-- `vt_file_read_to_buffer`, fileio.c:104-148. -/
def readToBuffer (E : Env) (w : World) (z : Mem) (buf : Mem) (n : Nat) (f : Fds) : Out ((Bool × Mem) × Fds) := do
  let t ← scanZ z
  dassert E (n > 0)
  match openR w t, acquire f with
  | some d, some (h, f) => do
    let size := Path.fileSize w t
    if size < 0 then do
      let f ← close f h
      .ok ((false, buf), f)
    else do
      let k := if n ≤ size.toNat then n else size.toNat
      use f h
      let r ← FileIo.fread buf k d
      if r.1 ≠ k then do
        let f ← close f h
        .ok ((false, r.2), f)
      else do
        let f ← close f h
        .ok ((true, r.2), f)
  | _, _ => .ok ((false, buf), f)

/-- `vt_file_writefc`, fileio.c:249-276; with `append` and `ln` false also `vt_file_writef`, fileio.c:198-220, and with `append` false and `ln` true `vt_file_writefln`, fileio.c:222-247. -/
def writefc (w : World) (z : Mem) (append ln : Bool) (s : List UInt8) (f : Fds) : Out ((World × Bool) × Fds) := do
  let t ← scanZ z
  match acquire f, openW w append t with
  | some (h, f), some (w, p) => do
    use f h
    let w := put w p s
    if ln then do
      use f h
      let w := put w p [10]
      let f ← close f h
      .ok ((w, true), f)
    else do
      let f ← close f h
      .ok ((w, true), f)
  | _, _ => .ok ((w, false), f)

/-- The loop of `vt_path_dir_list`, path.c:114-128, reading from the directory `h`. -/
def listLoop (E : Env) (ign : Bool) (f : Fds) (h : Nat) : List Name → (pl : List Arr) → Out (List Arr)
  | [], pl => do
    use f h
    .ok pl
  | n :: ns, pl => do
    use f h
    let b ← Path.skip ign n
    if b then listLoop E ign f h ns pl else do
      let d ← Str.create E (Path.nameMem n)
      listLoop E ign f h ns (pl ++ [d])

/-- `vt_path_dir_list`, path.c:89-137. -/
def dirList (E : Env) (w : World) (z : Mem) (ign : Bool) (f : Fds) : Out (Option (List Arr) × Fds) := do
  let t ← scanZ z
  if !Path.exists_ w t then .ok (none, f) else
    match readdir w t, acquire f with
    | some ns, some (h, f) => do
      let r ← listLoop E ign f h ns []
      let f ← close f h
      .ok (some r, f)
    | _, _ => .ok (none, f)

/-- The loop of `vt_path_dir_list_recurse`, path.c:164-193, reading from the directory `h`. -/
def recurseLoop (E : Env) (w : World) (ign : Bool) (z : Mem) (h : Nat) (rec : List Arr → Mem → Fds → Out (Option (List Arr) × Fds)) :
    List Name → (st : Arr) → (pl : List Arr) → Fds → Out (List Arr × Fds)
  | [], _, pl, f => do
    use f h
    .ok (pl, f)
  | n :: ns, st, pl, f => do
    use f h
    let b ← Path.skip ign n
    if b then recurseLoop E w ign z h rec ns st pl f else do
      let st ← Str.append E st z
      let st ← Str.append E st Path.sepZ
      let st ← Str.append E st (Path.nameMem n)
      let t ← Str.z st
      let r ← (if Path.isDir w t then rec pl st.mem f else .ok (some pl, f))
      match r with
      | (none, f) => .ok (pl, f)
      | (some pl, f) => do
        let d ← Str.dup E st
        let st ← Str.clear st
        recurseLoop E w ign z h rec ns st (pl ++ [d]) f

/-- `vt_path_dir_list_recurse`, path.c:139-203. -/
def dirListRecurse (E : Env) (w : World) (ign : Bool) : (fuel : Nat) → (pl : List Arr) → (z : Mem) → Fds → Out (Option (List Arr) × Fds)
  | 0, _, _, _ => .fuel
  | fuel + 1, pl, z, f => do
    let t ← scanZ z
    if !Path.exists_ w t then .ok (none, f) else
      match readdir w t, acquire f with
      | some ns, some (h, f) => do
        let st ← Str.createCapacity E defaultInit
        let (r, f) ← recurseLoop E w ign z h (dirListRecurse E w ign fuel) ns st pl f
        let f ← close f h
        .ok (some r, f)
      | _, _ => .ok (none, f)

/-- `vt_path_rmdir_recurse`, path.c:385-435. -/
def rmdirRecurse (E : Env) (fuel : Nat) (w : World) (z : Mem) (f : Fds) : Out ((World × Bool) × Fds) := do
  let t ← scanZ z
  if !Path.exists_ w t then .ok ((w, false), f) else do
    let (dl, f) ← dirListRecurse E w false fuel [] z f
    match dl with
    | none => .ok (Path.rmdir w t, f)
    | some [] => .ok (Path.rmdir w t, f)
    | some l => do
      let r ← Path.rmdirLoop t l w
      .ok (r, f)

/-- `stderr`. -/
def stderr : Nat := 2

/-- `vt_log`, log.c:34-75, for a release build. -/
def log (s : Log.St) (z : Option Mem) (l : Log.Level) (expr : Bool) (m : Log.Msg) (f : Fds) : Out ((Log.St × Bool) × Fds) :=
  if !expr then do
    let t ← scanZ (z.getD (s.names l))
    if t = [] then do
      use f stderr
      .ok (({ s with err := s.err ++ Log.text l m }, decide (l = .fatal ∨ l = .assert)), f)
    else match acquire f, openW s.world true t with
      | some (h, f), some (w, p) => do
        use f h
        let f ← close f h
        .ok (({ s with world := put w p (Log.text l m) }, decide (l = .fatal ∨ l = .assert)), f)
      | _, _ => .ok ((s, false), f)
  else .ok ((s, false), f)

/-- Opening the output of debug messages, writing, closing it: debug.c:26-38 and 58-69; `name` is `vt_debug_output_filename`, `on` is `vt_debug_output_on`.  The result has the text on `stderr`. -/
def emit (on : Bool) (name : Option Mem) (w : World) (t : List UInt8) (f : Fds) : Out ((World × List UInt8) × Fds) :=
  if on then
    match name with
    | none => do
      use f stderr
      .ok ((w, t), f)
    | some z => do
      let n ← scanZ z
      match acquire f, openW w true n with
      | some (h, f), some (w, p) => do
        use f h
        let f ← close f h
        .ok ((put w p t, []), f)
      | _, _ => do
        use f stderr
        let f ← close f stderr
        .ok ((w, t), f)
  else .ok ((w, []), f)

end Vita.Handles
