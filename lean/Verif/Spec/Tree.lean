import Verif.Model.FileIo
import Verif.Spec.Fs
import Mathlib.Logic.Basic
/-!
# Programs that use the file functions, and trees

A program is a list of calls; `calls` makes them with the modelled functions.  A tree says what there is at each path; `Tree.run` says
what the calls mean for it.
-/

namespace Vita.Fs

/-- Calls of the functions of path.c and fileio.c.  The text written by `write` replaces the file or is appended, with or without a newline. -/
inductive Cmd
  | mkdir (t : List UInt8)
  | rmdir (t : List UInt8)
  | remove (t : List UInt8)
  | rename (t u : List UInt8)
  | write (append ln : Bool) (t s : List UInt8)
  | pathExists (t : List UInt8)
  | isDir (t : List UInt8)
  | isFile (t : List UInt8)
  | read (t : List UInt8) (n : Nat)

/-- What a call returns: a truth value, and what is in the buffer for `read`. -/
abbrev Answer := Bool × Mem

/-- One call.  The buffer for `read` has `n` bytes, whose values are not known before. -/
def call (E : Env) (w : World) : Cmd → Out (World × Answer)
  | .mkdir t => .ok ((Path.mkdir w t).1, (Path.mkdir w t).2, [])
  | .rmdir t => .ok ((Path.rmdir w t).1, (Path.rmdir w t).2, [])
  | .remove t => .ok ((Path.remove w t).1, (Path.remove w t).2, [])
  | .rename t u => .ok ((Path.rename w t u).1, (Path.rename w t u).2, [])
  | .write app ln t s => do
    let b := s.map some ++ [some 0]
    let z := t.map some ++ [some 0]
    let r ← FileIo.run w (if app then (if ln then .appendln z b else .append z b) else (if ln then .writeln z b else .write z b))
    .ok (r.1, r.2, [])
  | .pathExists t => .ok (w, Path.exists_ w t, [])
  | .isDir t => .ok (w, Path.isDir w t, [])
  | .isFile t => .ok (w, Path.isFile w t, [])
  | .read t n => do
    let r ← FileIo.readToBuffer E w (t.map some ++ [some 0]) (List.replicate n none) n
    .ok (w, r.1, r.2)

/-- A program: its calls one after the other, and what they returned. -/
def calls (E : Env) (w : World) : List Cmd → Out (World × List Answer)
  | [] => .ok (w, [])
  | c :: cs => do
    let r ← call E w c
    let r2 ← calls E r.1 cs
    .ok (r2.1, r.2 :: r2.2)

/-- What there is at each path.  The empty path is the root directory. -/
abbrev Tree := Path → Option Kind

namespace Tree

/-- The tree with something else, or nothing, at `p`. -/
def set (T : Tree) (p : Path) (k : Option Kind) : Tree := fun q => if q = p then k else T q

/-- There is a directory in which `p` is or can be. -/
def Place (T : Tree) (p : Path) : Prop := T p.dropLast = some .dir

/-- There is nothing below `p`. -/
def Bare (T : Tree) (p : Path) : Prop := ∀ n, T (p ++ [n]) = none

/-- The tree after what is at and below `p` has been moved to `q`. -/
def move (T : Tree) (p q : Path) : Tree := fun r => if q <+: r then T (p ++ r.drop q.length) else if p <+: r then none else T r

open Classical in
/-- What a call does with a tree, and what it returns. -/
noncomputable def step (T : Tree) : Cmd → Tree × Answer
  | .mkdir t =>
    if T (comps t) ≠ none then (T, true, [])
    else if T.Place (comps t) then (T.set (comps t) (some .dir), true, []) else (T, false, [])
  | .rmdir t => if T (comps t) = some .dir ∧ T.Bare (comps t) then (T.set (comps t) none, true, []) else (T, false, [])
  | .remove t => if T (comps t) ≠ none ∧ T.Bare (comps t) then (T.set (comps t) none, true, []) else (T, false, [])
  | .rename t u =>
    let p := comps t
    let q := comps u
    if T p = none then (T, false, [])
    else if p = q then (T, true, [])
    else if p <+: q ∨ ¬ T.Place q then (T, false, [])
    else if T q = none ∨ (T p = some .dir ↔ T q = some .dir) ∧ T.Bare q then (T.move p q, true, [])
    else (T, false, [])
  | .write app ln t s =>
    let new := s ++ if ln then [10] else []
    match T (comps t) with
    | none => if T.Place (comps t) then (T.set (comps t) (some (.file new)), true, []) else (T, false, [])
    | some (.file d) => (T.set (comps t) (some (.file ((if app then d else []) ++ new))), true, [])
    | some _ => (T, false, [])
  | .pathExists t => (T, decide (T (comps t) ≠ none), [])
  | .isDir t => (T, decide (T (comps t) = some .dir), [])
  | .isFile t => (T, decide (∃ d, T (comps t) = some (.file d)), [])
  | .read t n =>
    match T (comps t) with
    | some (.file d) => (T, true, (d.take n).map some ++ List.replicate (n - d.length) none)
    | _ => (T, false, List.replicate n none)

/-- The calls of a program one after the other. -/
noncomputable def run (T : Tree) : List Cmd → Tree × List Answer
  | [] => (T, [])
  | c :: cs => ((run (step T c).1 cs).1, (step T c).2 :: (run (step T c).1 cs).2)

end Tree

/-- A path text: it starts at the root directory, has names that entries can have, and does not end in a separator. -/
structure PathText (t : List UInt8) : Prop where
  root : t.head? = some 47
  last : t.getLast? ≠ some 47
  nul : 0 ∉ t
  short : t.length < maxPath
  some : comps t ≠ []
  good : ∀ n ∈ comps t, GoodName n

/-- The arguments of a call: path texts; texts to be written without zero; the buffer is not empty. -/
def Cmd.Ok : Cmd → Prop
  | .mkdir t | .rmdir t | .remove t | .pathExists t | .isDir t | .isFile t => PathText t
  | .rename t u => PathText t ∧ PathText u
  | .write _ _ t s => PathText t ∧ 0 ∉ s ∧ s.length < 2 ^ 31
  | .read t n => PathText t ∧ 0 < n

/-- A file system without links in which the process may do everything and there is room. -/
structure Free (w : World) : Prop where
  wf : Wf w
  noLink : ∀ q x, kind w q ≠ some (.link x)
  readable : ∀ q, w.readable q = true
  mayCreate : ∀ q, w.mayCreate q = true
  mayRemove : ∀ q, w.mayRemove q = true
  mayWrite : ∀ q, w.mayWrite q = true
  room : ∀ q, w.room q = none

end Vita.Fs
