import Verif.Props.Race
import Verif.Props.PathOps
/-!
# Renaming and listing while other processes change the file system (C137)
-/

namespace Vita
open Out Spec Fs
seal wadd wsub wmul

open Race (Others Now next)

theorem race_rename_not {o : Others} {t1 : Text} {s : Now} (h : Path.exists_ (next o s).world t1 = false) (t2 : Text) : Race.rename o t1 t2 s = (false, next o s) := by
  rw [Race.rename, race_exists h]; rfl

theorem race_rename_there {o : Others} {t1 : Text} {s : Now} (h : Path.exists_ (next o s).world t1 = true) (t2 : Text) :
    Race.rename o t1 t2 s = Race.change o (Fs.rename · t1 t2) (next o s) := by
  rw [Race.rename, race_exists h]; rfl

/-- **C137** `vt_path_rename` while others change the file system: if it returns false, it has changed nothing itself.  If it returns true, then exactly what was at
and below the first name at that moment has moved to the second name, whatever was there when the first name was looked at. -/
theorem C137_rename {o : Others} (ho : ∀ i w, Wf w → Wf (o i w)) {s : Now} (hw : Wf s.world) (t1 t2 : Text) :
    ((Race.rename o t1 t2 s).1 = false → (Race.rename o t1 t2 s).2 = moment o 1 s ∧ stat (moment o 1 s).world t1 = none ∨
      (Race.rename o t1 t2 s).2 = moment o 2 s ∧ stat (moment o 1 s).world t1 ≠ none) ∧
    ((Race.rename o t1 t2 s).1 = true → ∃ p q k, resolve (moment o 2 s).world false t1 = some p ∧ resolve (moment o 2 s).world false t2 = some q ∧
      kind (moment o 2 s).world p = some k ∧ (p = q → (Race.rename o t1 t2 s).2 = moment o 2 s) ∧
      (p ≠ q →
        (∀ k2, kind (moment o 2 s).world q = some k2 → (k = .dir ↔ k2 = .dir) ∧ names (moment o 2 s).world q = []) ∧
        (∀ rel, kind (Race.rename o t1 t2 s).2.world (q ++ rel) = kind (moment o 2 s).world (p ++ rel)) ∧
        (∀ rel, kind (Race.rename o t1 t2 s).2.world (p ++ rel) = none) ∧
        (∀ r, ¬ p <+: r → ¬ q <+: r → kind (Race.rename o t1 t2 s).2.world r = kind (moment o 2 s).world r))) := by
  cases hs : Path.exists_ (next o s).world t1 with
  | false =>
    rw [race_rename_not hs]
    refine ⟨fun _ => .inl ⟨rfl, ?_⟩, by simp⟩
    rw [Path.exists_, Option.isSome_eq_false_iff, Option.isNone_iff_eq_none] at hs
    exact hs
  | true =>
    rw [race_rename_there hs]
    have hw2 : Wf (moment o 2 s).world := moment_wf ho 2 s hw
    cases hm : Fs.rename (next o (next o s)).world t1 t2 with
    | none =>
      rw [change_none hm]
      refine ⟨fun _ => .inr ⟨rfl, ?_⟩, by simp⟩
      rw [Path.exists_, Option.isSome_iff_ne_none] at hs
      exact hs
    | some w' =>
      rw [change_some hm]
      obtain ⟨p, q, k, h1, h2, h3, h4, h5⟩ := fs_rename_some hw2 hm
      refine ⟨by simp, fun _ => ⟨p, q, k, h1, h2, h3, fun h => ?_, h5⟩⟩
      rw [h4 h]
      rfl

/-- **C137** (counterexample to "the target is free if it was free before the call") If the target is free when the caller looks, and others make a file there before
the renaming, then that file is replaced and the answer is true. -/
theorem C137_rename_replaces {o : Others} (ho : ∀ i w, Wf w → Wf (o i w)) {s : Now} (hw : Wf s.world) {t1 t2 : Text} {p q : Fs.Path} {x : List UInt8}
    (h1 : resolve (moment o 2 s).world false t1 = some p) (h2 : resolve (moment o 2 s).world false t2 = some q) (hpq : p ≠ q)
    (hq : kind (moment o 2 s).world q = some (.file x)) (ht : (Race.rename o t1 t2 s).1 = true) :
    kind (Race.rename o t1 t2 s).2.world q = kind (moment o 2 s).world p ∧ kind (Race.rename o t1 t2 s).2.world p = none := by
  obtain ⟨p', q', k, g1, g2, -, -, g⟩ := (C137_rename ho hw t1 t2).2 ht
  rw [h1] at g1; rw [h2] at g2
  cases g1; cases g2
  obtain ⟨-, a, b, -⟩ := g hpq
  exact ⟨by simpa using a [], by simpa using b []⟩

/-- `/a` is a file with one byte; before the call number `k` somebody makes the file `/b` with another byte. -/
def exRename : World := { nodes := [([[97]], .file [1])] }
/-- See `exRename`. -/
def exMakeB (k : Nat) : Others := fun i w => if i = k then { w with nodes := w.nodes ++ [([[98]], .file [2])] } else w

example : let r := Race.rename (exMakeB 1) (chars' "/a") (chars' "/b") { count := 0, world := exRename }
    r.1 = true ∧ kind r.2.world [[98]] = some (.file [1]) ∧ kind r.2.world [[97]] = none ∧
    kind (moment (exMakeB 1) 1 { count := 0, world := exRename }).world [[98]] = none ∧
    kind (moment (exMakeB 1) 2 { count := 0, world := exRename }).world [[98]] = some (.file [2]) := by decide +kernel

/-! ### Listing one directory -/

theorem race_dirList_not {E : Env} {o : Others} {z : Mem} {t : Text} (hz : CStr z t) {s : Now} (h : stat (moment o 1 s).world t = none) (ign : Bool) :
    Race.dirList E o z ign s = .ok (none, moment o 1 s) := by
  have h' : Path.exists_ (next o s).world t = false := by rw [Path.exists_, show stat (next o s).world t = none from h]; rfl
  rw [Race.dirList, hz.text, bind_ok, race_exists h']
  rfl

theorem race_dirList_none {E : Env} {o : Others} {z : Mem} {t : Text} (hz : CStr z t) {s : Now} (h : stat (moment o 1 s).world t ≠ none)
    (hn : readdir (moment o 2 s).world t = none) (ign : Bool) :
    Race.dirList E o z ign s = .ok (none, moment o 2 s) := by
  have h' : Path.exists_ (next o s).world t = true := by rw [Path.exists_, Option.isSome_iff_ne_none]; exact h
  have hn' : readdir (next o (next o s)).world t = none := hn
  rw [Race.dirList, hz.text, bind_ok, race_exists h']
  simp only [Bool.not_true, Bool.false_eq_true, if_false, hn']
  rfl

theorem race_dirList_some {E : Env} {o : Others} {z : Mem} {t : Text} (hz : CStr z t) {s : Now} (h : stat (moment o 1 s).world t ≠ none)
    {ns : List Name} (hn : readdir (moment o 2 s).world t = some ns) (ign : Bool) :
    Race.dirList E o z ign s = (Path.dirList E (moment o 2 s).world z ign).bind fun r => .ok (r, moment o 2 s) := by
  have h' : Path.exists_ (next o s).world t = true := by rw [Path.exists_, Option.isSome_iff_ne_none]; exact h
  have hn' : readdir (next o (next o s)).world t = some ns := hn
  obtain ⟨d, hr, hd, -⟩ := readdir_some hn
  have h2 : Path.exists_ (moment o 2 s).world t = true := by rw [Path.exists_, stat_dir hr hd]; rfl
  rw [Race.dirList, hz.text, bind_ok, race_exists h', Path.dirList, hz.text, bind_ok, h2]
  simp only [Bool.not_true, Bool.false_eq_true, if_false, hn', hn]
  cases Path.listLoop E ign ns [] <;> rfl

/-- **C137** `vt_path_dir_list` while others change the file system: it returns NULL if the path did not exist when it was looked at, or could not be opened as a directory
one call later; otherwise it returns the names that the directory had at that later moment, each once (without the names that begin with a dot, if
asked).  It changes nothing. -/
theorem C137_dir_list {E : Env} {o : Others} (ho : ∀ i w, Wf w → Wf (o i w)) {s : Now} (hw : Wf s.world) {z : Mem} {t : Text} (hz : CStr z t) (ign : Bool) :
    OkOr E 311 (Race.dirList E o z ign s) fun r =>
      (stat (moment o 1 s).world t = none → r = (none, moment o 1 s)) ∧
      (stat (moment o 1 s).world t ≠ none → r.2 = moment o 2 s ∧
        (readdir (moment o 2 s).world t = none → r.1 = none) ∧
        (readdir (moment o 2 s).world t ≠ none → ∃ d l ns, resolve (moment o 2 s).world true t = some d ∧ r.1 = some l ∧ List.Forall₂ IsStr l ns ∧ ns.Nodup ∧
          ∀ n, n ∈ ns ↔ kind (moment o 2 s).world (d ++ [n]) ≠ none ∧ (ign = true → n.head? ≠ some 46))) := by
  by_cases h : stat (moment o 1 s).world t = none
  · rw [race_dirList_not hz h]
    exact OkOr.ok ⟨fun _ => rfl, fun hc => absurd h hc⟩
  · cases hn : readdir (moment o 2 s).world t with
    | none =>
      rw [race_dirList_none hz h hn]
      exact OkOr.ok ⟨fun hc => absurd hc h, fun _ => ⟨rfl, fun _ => rfl, fun hc => absurd rfl hc⟩⟩
    | some ns =>
      rw [race_dirList_some hz h hn]
      obtain ⟨d, hr, hd, -⟩ := readdir_some hn
      have hrd : (moment o 2 s).world.readable d = true := by
        cases hx : (moment o 2 s).world.readable d with
        | true => rfl
        | false => rw [readdir, hr] at hn; simp [hx] at hn
      refine (C62_dir_list (moment_wf ho 2 s hw) hz hr hd hrd ign).bind ?_
      rintro r ⟨l, ns', e, h1, h2, h3⟩
      exact OkOr.ok ⟨fun hc => absurd hc h, fun _ => ⟨rfl, fun hc => (by cases hc), fun _ => ⟨d, l, ns', hr, e, h1, h2, h3⟩⟩⟩

/-- **C137** If the others do nothing, `vt_path_dir_list` is the function without others. -/
theorem C137_quiet_list (E : Env) {z : Mem} {t : Text} (hz : CStr z t) (ign : Bool) (s : Now) :
    (Race.dirList E quiet z ign s).mapOk seen = (Path.dirList E s.world z ign).mapOk fun r => (r, s.world) := by
  by_cases h : stat s.world t = none
  · rw [race_dirList_not hz (o := quiet) h, Path.dirList, hz.text, bind_ok, show Path.exists_ s.world t = false by rw [Path.exists_, h]; rfl]
    rfl
  · cases hn : readdir s.world t with
    | none =>
      rw [race_dirList_none hz (o := quiet) h hn, Path.dirList, hz.text, bind_ok,
        show Path.exists_ s.world t = true by rw [Path.exists_, Option.isSome_iff_ne_none]; exact h]
      simp only [Bool.not_true, Bool.false_eq_true, if_false, hn]
      rfl
    | some ns =>
      rw [race_dirList_some hz (o := quiet) h hn, show (moment quiet 2 s).world = s.world from rfl]
      cases Path.dirList E s.world z ign <;> rfl

/-- Example: the directory `/d` has one entry when it is looked at, and two when it is read. -/
example : let w : World := { nodes := [([[100]], .dir), ([[100], [120]], .file [])] }
    let o : Others := fun i w => if i = 1 then { w with nodes := w.nodes ++ [([[100], [121]], .file [])] } else w
    names w [[100]] = [[120]] ∧
    ((Race.dirList exE o (zstr (chars' "/d")) false { count := 0, world := w }).mapOk fun r => r.1.map fun l => l.map fun a => a.mem.take 2) =
      .ok (some [zstr [120], zstr [121]]) := by decide +kernel

end Vita
