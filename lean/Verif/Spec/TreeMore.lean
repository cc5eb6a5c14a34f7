import Verif.Spec.Tree
/-!
# Programs that also make chains of directories, remove branches and list directories

As `Spec/Tree.lean`, with the calls that work on several entries.  The order in which a directory lists its entries is up to the file system, so what a call means is a
relation here.
-/

namespace Vita.Fs

/-- The calls of `Cmd`, and `vt_path_mkdir_parents`, `vt_path_rmdir_recurse`, `vt_path_dir_list`, `vt_path_dir_list_recurse` and `vt_file_read`. -/
inductive CmdMore
  | one (c : Cmd)
  | mkdirs (t : List UInt8)
  | rmtree (t : List UInt8)
  | list (ign : Bool) (t : List UInt8)
  | listAll (ign : Bool) (t : List UInt8)
  | load (t : List UInt8)

/-- What a call returns: as before, or a list of texts, or a string, where `none` is NULL. -/
inductive Reply
  | answer (a : Answer)
  | listing (l : Option (List (List UInt8)))
  | contents (m : Option Mem)
  deriving DecidableEq

/-- The texts of a list of strings. -/
def texts : List Arr → Out (List (List UInt8))
  | [] => .ok []
  | a :: as => do
    let t ← Str.z a
    let ts ← texts as
    .ok (t :: ts)

/-- The texts of a list that may be NULL. -/
def textsOf : Option (List Arr) → Out (Option (List (List UInt8)))
  | none => .ok none
  | some l => do
    let ts ← texts l
    .ok (some ts)

/-- The length of the longest path. -/
def depth (w : World) : Nat := (w.nodes.map (·.1.length)).foldr max 0

/-- One call. -/
def callMore (E : Env) (w : World) : CmdMore → Out (World × Reply)
  | .one c => do
    let r ← call E w c
    .ok (r.1, .answer r.2)
  | .mkdirs t => do
    let r ← Path.mkdirParents E (t.length + 1) w (t.map some ++ [some 0])
    .ok (r.1, .answer (r.2, []))
  | .rmtree t => do
    let r ← Path.rmdirRecurse E (depth w + 1) w (t.map some ++ [some 0])
    .ok (r.1, .answer (r.2, []))
  | .list ign t => do
    let l ← Path.dirList E w (t.map some ++ [some 0]) ign
    let ts ← textsOf l
    .ok (w, .listing ts)
  | .listAll ign t => do
    let l ← Path.dirListRecurse E w ign (depth w + 1) [] (t.map some ++ [some 0])
    let ts ← textsOf l
    .ok (w, .listing ts)
  | .load t => do
    let o ← FileIo.read E w (t.map some ++ [some 0])
    .ok (w, .contents (o.map fun v => v.mem.take v.len))

/-- A program: its calls one after the other, and what they returned. -/
def callsMore (E : Env) (w : World) : List CmdMore → Out (World × List Reply)
  | [] => .ok (w, [])
  | c :: cs => do
    let r ← callMore E w c
    let r2 ← callsMore E r.1 cs
    .ok (r2.1, r.2 :: r2.2)

namespace Tree

open Classical in
/-- The tree with all directories down to `p`, as far as no file is in the way. -/
noncomputable def chain (T : Tree) (p : Path) : Tree := fun q => if q <+: p ∧ ∀ r, r <+: q → T r = none ∨ T r = some .dir then some .dir else T q

/-- The tree without what is at and below `p`. -/
def cut (T : Tree) (p : Path) : Tree := fun q => if p <+: q then none else T q

/-- Do the call and the reply `r` take the tree `T` to `T'`? -/
def Step (T : Tree) (T' : Tree) (r : Reply) : CmdMore → Prop
  | .one c => T' = (step T c).1 ∧ r = .answer (step T c).2
  | .mkdirs t => T' = T.chain (comps t) ∧ r = .answer (true, [])
  | .rmtree t => if T (comps t) = some .dir then T' = T.cut (comps t) ∧ r = .answer (true, []) else T' = T ∧ r = .answer (false, [])
  | .list ign t => T' = T ∧ if T (comps t) = some .dir then
      ∃ ns : List Name, r = .listing (some ns) ∧ ns.Nodup ∧ ∀ n, n ∈ ns ↔ T (comps t ++ [n]) ≠ none ∧ (ign = true → n.head? ≠ some 46)
    else r = .listing none
  | .listAll ign t => T' = T ∧ if T (comps t) = some .dir then
      ∃ L : List Path, r = .listing (some (L.map (render t))) ∧ L.Nodup ∧ (∀ p, p ∈ L ↔ p ≠ [] ∧ T (comps t ++ p) ≠ none ∧ Visible ign p) ∧
        L.Pairwise fun a b => ¬ a <+: b
    else r = .listing none
  | .load t => T' = T ∧ r = .contents (match T (comps t) with | some (.file d) => some (d.map some) | _ => none)

/-- The calls of a program, one after the other. -/
inductive Runs : Tree → List CmdMore → Tree → List Reply → Prop
  | nil (T : Tree) : Runs T [] T []
  | cons {T T' T'' : Tree} {c : CmdMore} {r : Reply} {cs : List CmdMore} {rs : List Reply} :
      Step T T' r c → Runs T' cs T'' rs → Runs T (c :: cs) T'' (r :: rs)

/-- The texts of all paths below `comps t`, if they start with `t`, are not too long for the system. -/
def Short (T : Tree) (t : List UInt8) : Prop := ∀ p, T (comps t ++ p) ≠ none → (render t p).length < maxPath

/-- The calls that go through a branch find only texts that are not too long, and the files that are read are not empty (see `C64_empty_file_exits`) and need no more
memory than `B`. -/
def Fits (B : Nat) (T : Tree) : CmdMore → Prop
  | .rmtree t | .listAll _ t => T.Short t
  | .load t => ∀ d, T (comps t) = some (.file d) → d ≠ [] ∧ d.length < 2 ^ 63 ∧ d.length + 56 ≤ B
  | _ => True

/-- So do those of a program, one after the other. -/
def AllFit (B : Nat) : Tree → List CmdMore → Prop
  | _, [] => True
  | T, c :: cs => T.Fits B c ∧ ∀ T' r, T.Step T' r c → AllFit B T' cs

end Tree

/-- The arguments of a call. -/
def CmdMore.Ok : CmdMore → Prop
  | .one c => c.Ok
  | .mkdirs t => PathText t ∧ t.length + 1 < maxPath
  | .rmtree t | .list _ t | .listAll _ t | .load t => PathText t

end Vita.Fs
