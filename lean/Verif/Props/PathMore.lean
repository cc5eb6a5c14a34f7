import Verif.Props.PathOps
/-!
# What exists and what does not, for the functions that change the file system
-/

namespace Vita
open Out Spec Fs

/-- **C86** (counterexample to "true means that there is a directory", in general) Wherever there is something, a file for example, `vt_path_mkdir` returns true and
does nothing. -/
theorem C86_mkdir_existing {w : World} {t : Text} {k : Kind} (h : stat w t = some k) :
    Path.mkdir w t = (w, true) ∧ (k ≠ .dir → Path.isDir (Path.mkdir w t).1 t = false) := by
  have e : Path.mkdir w t = (w, true) := by unfold Path.mkdir Path.exists_; rw [h]; rfl
  refine ⟨e, fun hk => ?_⟩
  rw [e]
  unfold Path.isDir
  rw [h]
  simpa using hk

/-- **C86** (counterexample to "what is there can be renamed and removed", in general) A link whose target does not exist, or that leads in a circle, is an entry `p`
of its directory.  It cannot be renamed or removed. -/
theorem C86_dangling_link_stays {w : World} {t : Text} {p : Fs.Path} {x : List UInt8} (_hp : resolve w false t = some p)
    (_hk : kind w p = some (.link x)) (h : stat w t = none) (t2 : Text) :
    Path.remove w t = (w, false) ∧ Path.rmdir w t = (w, false) ∧ Path.rename w t t2 = (w, false) := by
  refine ⟨?_, ?_, ?_⟩ <;> simp [Path.remove, Path.rmdir, Path.rename, Path.exists_, h]

example : let w : World := { nodes := [([[108]], .link (chars' "/l"))] }
    resolve w false (chars' "/l") = some [[108]] ∧ kind w [[108]] = some (.link (chars' "/l")) ∧ stat w (chars' "/l") = none := by decide +kernel

end Vita
