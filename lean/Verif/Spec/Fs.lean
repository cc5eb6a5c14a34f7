import Verif.Model.Fs
/-!
# File-system states

What is assumed of a file system, and what a listing of a directory is.
-/

namespace Vita.Fs

/-- A name that a directory entry can have (at most `NAME_MAX` bytes). -/
structure GoodName (n : Name) : Prop where
  ne : n ≠ []
  sep : 47 ∉ n
  nul : 0 ∉ n
  dot : n ≠ [46]
  dotdot : n ≠ [46, 46]
  len : n.length ≤ 255

/-- A file system: no two nodes have the same path, and each node is an entry of a directory. -/
structure Wf (w : World) : Prop where
  nodup : (w.nodes.map (·.1)).Nodup
  parent : ∀ q ∈ w.nodes, ∃ p n, q.1 = p ++ [n] ∧ GoodName n ∧ kind w p = some .dir

/-- The path text `t` continued with the names `rel`. -/
def render (t : List UInt8) (rel : Path) : List UInt8 := t ++ (rel.map (47 :: ·)).flatten

/-- The entry is not hidden, and not below a hidden one. -/
def Visible (ign : Bool) (rel : Path) : Prop := ign = true → ∀ n ∈ rel, n.head? ≠ some 46

/-- `L` lists what is below the directory `d`: everything visible, once, each directory after its contents. -/
structure IsListing (w : World) (ign : Bool) (d : Path) (L : List Path) : Prop where
  nodup : L.Nodup
  mem : ∀ rel, rel ∈ L ↔ rel ≠ [] ∧ kind w (d ++ rel) ≠ none ∧ Visible ign rel
  order : L.Pairwise fun a b => ¬ a <+: b

/-- The subtree at `d` can be listed: it has no links, its directories can be opened, and the texts of its paths, if they start with `t`, are not too
long. -/
structure Listable (w : World) (t : List UInt8) (d : Path) : Prop where
  noLink : ∀ rel x, kind w (d ++ rel) ≠ some (.link x)
  readable : ∀ rel, kind w (d ++ rel) = some .dir → w.readable (d ++ rel) = true
  short : ∀ rel, kind w (d ++ rel) ≠ none → (render t rel).length < maxPath

/-- The path at which a text starts. -/
def base (w : World) (t : List UInt8) : Path := if t.head? = some 47 then [] else w.cwd

/-- The text `t` names the path `d` without using `.` and `..`. -/
structure Plain (w : World) (t : List UInt8) (d : Path) : Prop where
  ne : t ≠ []
  path : d = base w t ++ comps t
  names : ∀ n ∈ comps t, n ≠ [46] ∧ n ≠ [46, 46]

end Vita.Fs
