import Verif.Model.PathFs
/-!
# Model of src/vita/system/fileio.c

The functions take the state of the file system and return the new one.  Texts to be written are shorter than 2 GiB (`vfprintf` counts in an `int`).  Debug
messages are not modelled; `fclose`, whose result is not looked at, is in `Model/Handles.lean`.
-/

namespace Vita.FileIo
open Fs

/-- `fread(m + 0, 1, n, fp)` from a file with the data `d`: the number of bytes read and the memory. -/
def fread (m : Mem) (n : Nat) (d : List UInt8) : Out (Nat × Mem) := do
  let m ← writeN m 0 ((d.take n).map some)
  .ok (min n d.length, m)

/-- `vt_file_read`, fileio.c:3-54; on the platforms considered `vt_file_readb`, fileio.c:56-102, is the same code.  `none` is the returned NULL. -/
def read (E : Env) (w : World) (z : Mem) : Out (Option Arr) := do
  let t ← scanZ z
  match openR w t with
  | none => .ok none
  | some d => do
    let size := Path.fileSize w t
    if size < 0 then .ok none else do
      let s ← Str.createLen E size.toNat
      let r ← fread s.mem s.len d
      if r.1 ≠ s.len then .ok none else .ok (some { s with mem := r.2 })

/-- `vt_file_read_to_buffer`, fileio.c:104-148: was the buffer returned, and its contents. -/
def readToBuffer (E : Env) (w : World) (z : Mem) (buf : Mem) (n : Nat) : Out (Bool × Mem) := do
  let t ← scanZ z
  dassert E (n > 0)
  match openR w t with
  | none => .ok (false, buf)
  | some d => do
    let size := Path.fileSize w t
    if size < 0 then .ok (false, buf) else do
      let k := if n ≤ size.toNat then n else size.toNat
      let r ← fread buf k d
      if r.1 ≠ k then .ok (false, r.2) else .ok (true, r.2)

/-- `vt_file_writefc`, fileio.c:249-276, where `s` is the formatted text.  (The mode letter `b` has no effect.) -/
def writefc (w : World) (z : Mem) (append ln : Bool) (s : List UInt8) : Out (World × Bool) := do
  let t ← scanZ z
  match openW w append t with
  | none => .ok (w, false)
  | some (w, p) => do
    let w := put w p s
    let w := if ln then put w p [10] else w
    .ok (w, true)

/-- `vt_file_write` and `vt_file_writeb`, fileio.c:150-154 and 162-166. -/
def write (w : World) (z b : Mem) : Out (World × Bool) := do
  let s ← scanZ b
  writefc w z false false s

/-- `vt_file_writeln` and `vt_file_writebln`, fileio.c:156-160 and 168-172. -/
def writeln (w : World) (z b : Mem) : Out (World × Bool) := do
  let s ← scanZ b
  writefc w z false true s

/-- `vt_file_append` and `vt_file_appendb`, fileio.c:174-178 and 186-190. -/
def append (w : World) (z b : Mem) : Out (World × Bool) := do
  let s ← scanZ b
  writefc w z true false s

/-- `vt_file_appendln` and `vt_file_appendbln`, fileio.c:180-184 and 192-196. -/
def appendln (w : World) (z b : Mem) : Out (World × Bool) := do
  let s ← scanZ b
  writefc w z true true s

/-- `vt_file_writef`, fileio.c:198-220, where `s` is the formatted text. -/
def writef (w : World) (z : Mem) (s : List UInt8) : Out (World × Bool) := do
  let t ← scanZ z
  match openW w false t with
  | none => .ok (w, false)
  | some (w, p) => .ok (put w p s, true)

/-- `vt_file_writefln`, fileio.c:222-247, where `s` is the formatted text. -/
def writefln (w : World) (z : Mem) (s : List UInt8) : Out (World × Bool) := do
  let t ← scanZ z
  match openW w false t with
  | none => .ok (w, false)
  | some (w, p) => .ok (put (put w p s) p [10], true)

/-- The functions that write to a file. -/
inductive Call
  | write (z b : Mem)
  | writeln (z b : Mem)
  | append (z b : Mem)
  | appendln (z b : Mem)

/-- One call. -/
def run (w : World) : Call → Out (World × Bool)
  | .write z b => write w z b
  | .writeln z b => writeln w z b
  | .append z b => append w z b
  | .appendln z b => appendln w z b

/-- Calls one after the other, and what each of them returned. -/
def runs (w : World) : List Call → Out (World × List Bool)
  | [] => .ok (w, [])
  | c :: cs => do
    let r ← run w c
    let r2 ← runs r.1 cs
    .ok (r2.1, r.2 :: r2.2)

end Vita.FileIo
