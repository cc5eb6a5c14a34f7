import Verif.Model.Race
import Verif.Props.RmdirAny
import Verif.Props.FileIo
import Verif.Props.HandlesProg
/-!
# The file system while other processes change it (C137)
-/

namespace Vita
open Out Spec Fs
seal wadd wsub wmul

open Race (Others Now next)

/-! ### Nobody else -/

/-- The other processes do nothing. -/
def Spec.quiet : Others := fun _ w => w

theorem quiet_next (s : Now) : (next quiet s).world = s.world := rfl

/-- The result and the file system. -/
def seen {α : Type} (x : α × Now) : α × World := (x.1, x.2.world)

theorem quiet_change (f : World → Option World) (s : Now) :
    seen (Race.change quiet f s) = match f s.world with | none => (false, s.world) | some w => (true, w) := by
  unfold Race.change
  rw [quiet_next]
  cases f s.world <;> rfl

theorem quiet_single (t t2 : Text) (s : Now) :
    seen (Race.mkdir quiet t s) = (Path.mkdir s.world t).swap ∧ seen (Race.rmdir quiet t s) = (Path.rmdir s.world t).swap ∧
    seen (Race.remove quiet t s) = (Path.remove s.world t).swap ∧ seen (Race.rename quiet t t2 s) = (Path.rename s.world t t2).swap := by
  have hx : Race.exists_ quiet t s = (Path.exists_ s.world t, next quiet s) := rfl
  refine ⟨?_, ?_, ?_, ?_⟩
  · rw [Race.mkdir, Path.mkdir, hx]
    cases Path.exists_ s.world t with
    | true => rfl
    | false =>
      show seen (Race.change quiet (Fs.mkdir · t) (next quiet s)) = _
      rw [quiet_change]
      simp only [quiet_next]
      cases h : Fs.mkdir s.world t <;> simp [h]
  · rw [Race.rmdir, Path.rmdir, hx]
    cases Path.exists_ s.world t with
    | false => rfl
    | true =>
      show seen (Race.change quiet (Fs.rmdir · t) (next quiet s)) = _
      rw [quiet_change]
      simp only [quiet_next]
      cases h : Fs.rmdir s.world t <;> simp [h]
  · rw [Race.remove, Path.remove, hx]
    cases Path.exists_ s.world t with
    | false => rfl
    | true =>
      show seen (Race.change quiet (Fs.remove · t) (next quiet s)) = _
      rw [quiet_change]
      simp only [quiet_next]
      cases h : Fs.remove s.world t <;> simp [h]
  · rw [Race.rename, Path.rename, hx]
    cases Path.exists_ s.world t with
    | false => rfl
    | true =>
      show seen (Race.change quiet (Fs.rename · t t2) (next quiet s)) = _
      rw [quiet_change]
      simp only [quiet_next]
      cases h : Fs.rename s.world t t2 <;> simp [h]

theorem quiet_recurseLoop {E : Env} {w : World} {ign : Bool} {z : Mem} {rec : List Arr → Mem → Now → Out (Option (List Arr) × Now)} {rec' : List Arr → Mem → Out (Option (List Arr))}
    (hrec : ∀ pl z s, s.world = w → (rec pl z s).mapOk seen = (rec' pl z).mapOk (·, w)) :
    ∀ (ns : List Name) (st : Arr) (pl : List Arr) (s : Now), s.world = w →
      (Race.recurseLoop E quiet ign z rec ns st pl s).mapOk seen = (Path.recurseLoop E w ign z rec' ns st pl).mapOk (·, w)
  | [], st, pl, s, hs => by
    rw [Race.recurseLoop, Path.recurseLoop]
    simp only [mapOk, seen, hs]
  | n :: ns, st, pl, s, hs => by
    rw [Race.recurseLoop, Path.recurseLoop]
    cases Path.skip ign n with
    | ok b =>
      simp only [bind_ok]
      split
      · exact quiet_recurseLoop hrec ns st pl s hs
      · cases Str.append E st z with
        | ok s1 =>
          simp only [bind_ok]
          cases Str.append E s1 Path.sepZ with
          | ok s2 =>
            simp only [bind_ok]
            cases Str.append E s2 (Path.nameMem n) with
            | ok s3 =>
              simp only [bind_ok]
              cases Str.z s3 with
              | ok t =>
                simp only [bind_ok, Race.isDir, quiet_next, hs]
                have fin : ∀ (l : List Arr) (s' : Now), s'.world = w →
                    (do
                      let d ← Str.dup E s3
                      let st ← Str.clear s3
                      Race.recurseLoop E quiet ign z rec ns st (l ++ [d]) s').mapOk seen =
                    (do
                      let d ← Str.dup E s3
                      let st ← Str.clear s3
                      Path.recurseLoop E w ign z rec' ns st (l ++ [d])).mapOk (·, w) := by
                  intro l s' hs'
                  cases Str.dup E s3 with
                  | ok d =>
                    simp only [bind_ok]
                    cases Str.clear s3 with
                    | ok s4 => exact quiet_recurseLoop hrec ns s4 _ s' hs'
                    | _ => rfl
                  | _ => rfl
                split
                · have h1 := hrec pl s3.mem (next quiet s) (by rw [quiet_next, hs])
                  revert h1
                  cases rec pl s3.mem (next quiet s) with
                  | ok x =>
                    obtain ⟨r, s'⟩ := x
                    cases rec' pl s3.mem with
                    | ok r' =>
                      intro h1
                      simp only [mapOk, seen, ok.injEq, Prod.mk.injEq] at h1
                      obtain ⟨rfl, hs'⟩ := h1
                      simp only [bind_ok]
                      cases r with
                      | none => simp only [mapOk, seen, hs']
                      | some l => exact fin l s' hs'
                    | _ => intro h1; cases h1
                  | _ =>
                    cases rec' pl s3.mem with
                    | ok r' => intro h1; cases h1
                    | _ => intro h1; first | (cases h1; done) | (cases h1; rfl)
                · exact fin pl _ (by rw [quiet_next, hs])
              | _ => rfl
            | _ => rfl
          | _ => rfl
        | _ => rfl
    | _ => rfl

theorem quiet_dirListRecurse {E : Env} {w : World} {ign : Bool} : ∀ (k : Nat) (pl : List Arr) (z : Mem) (s : Now), s.world = w →
    (Race.dirListRecurse E quiet ign k pl z s).mapOk seen = (Path.dirListRecurse E w ign k pl z).mapOk (·, w)
  | 0, pl, z, s, hs => rfl
  | k + 1, pl, z, s, hs => by
    rw [Race.dirListRecurse, Path.dirListRecurse]
    cases scanZ z with
    | ok t =>
      simp only [bind_ok, Race.exists_, quiet_next, hs]
      split
      · simp only [mapOk, seen, quiet_next, hs]
      · cases readdir w t with
        | none => simp only [mapOk, seen, quiet_next, hs]
        | some ns =>
          simp only
          cases Str.createCapacity E defaultInit with
          | ok st =>
            simp only [bind_ok]
            have h1 := quiet_recurseLoop (E := E) (ign := ign) (z := z) (quiet_dirListRecurse (E := E) (ign := ign) k) ns st pl (next quiet (next quiet s))
              (by rw [quiet_next, quiet_next, hs])
            revert h1
            cases Race.recurseLoop E quiet ign z (Race.dirListRecurse E quiet ign k) ns st pl (next quiet (next quiet s)) with
            | ok x =>
              cases Path.recurseLoop E w ign z (Path.dirListRecurse E w ign k) ns st pl with
              | ok r' =>
                intro h1
                simp only [mapOk, seen, ok.injEq, Prod.mk.injEq] at h1
                obtain ⟨h1, h2⟩ := h1
                simp only [bind_ok, mapOk, seen, h1, h2]
              | _ => intro h1; cases h1
            | _ =>
              cases Path.recurseLoop E w ign z (Path.dirListRecurse E w ign k) ns st pl with
              | ok r' => intro h1; cases h1
              | _ => intro h1; first | (cases h1; done) | (cases h1; rfl)
          | _ => rfl
    | _ => rfl

theorem quiet_rmdirLoop (z : Text) : ∀ (l : List Arr) (s : Now), (Race.rmdirLoop quiet z l s).mapOk seen = (Path.rmdirLoop z l s.world).mapOk Prod.swap
  | [], s => by
    have := (quiet_single z z s).2.1
    simp only [seen, Prod.swap, Prod.mk.injEq] at this
    simp only [Race.rmdirLoop, Path.rmdirLoop, mapOk, seen, Prod.swap, this.2]
  | p :: ps, s => by
    rw [Race.rmdirLoop, Path.rmdirLoop]
    cases Str.z p with
    | ok t =>
      have hx : Race.isDir quiet t s = (Path.isDir s.world t, next quiet s) := rfl
      simp only [bind_ok, hx]
      have key : ∀ (x : Bool × Now) (y : World × Bool), seen x = y.swap →
          (if x.1 then Race.rmdirLoop quiet z ps x.2 else .ok (false, x.2)).mapOk seen = (if y.2 then Path.rmdirLoop z ps y.1 else .ok (y.1, false)).mapOk Prod.swap := by
        rintro ⟨b, s'⟩ ⟨w', b'⟩ h
        simp only [seen, Prod.swap, Prod.mk.injEq] at h
        obtain ⟨rfl, rfl⟩ := h
        simp only
        split
        · exact quiet_rmdirLoop z ps s'
        · rfl
      cases Path.isDir s.world t with
      | true => exact key _ _ (quiet_single t t (next quiet s)).2.1
      | false => exact key _ _ (quiet_single t t (next quiet s)).2.2.1
    | _ => rfl

theorem quiet_mkdirLoop {E : Env} : ∀ (l : List Arr) (sf : Arr) (s : Now), (Race.mkdirLoop E quiet l sf s).mapOk (·.world) = Path.mkdirLoop E l sf s.world
  | [], sf, s => rfl
  | d :: ds, sf, s => by
    rw [Race.mkdirLoop, Path.mkdirLoop]
    cases Str.append E sf d.mem with
    | ok s1 =>
      simp only [bind_ok]
      cases Str.append E s1 Path.sepZ with
      | ok s2 =>
        simp only [bind_ok]
        cases Str.z s2 with
        | ok t =>
          simp only [bind_ok]
          have := (quiet_single t t s).1
          simp only [seen, Prod.swap, Prod.mk.injEq] at this
          rw [← this.2]
          exact quiet_mkdirLoop ds s2 _
        | _ => rfl
      | _ => rfl
    | _ => rfl

theorem quiet_mkdirParents {E : Env} (k : Nat) (z : Mem) (s : Now) :
    (Race.mkdirParents E k quiet z s).mapOk seen = (Path.mkdirParents E k s.world z).mapOk Prod.swap := by
  unfold Race.mkdirParents Path.mkdirParents
  cases scanZ z with
  | ok t =>
    have hx : Race.exists_ quiet t s = (Path.exists_ s.world t, next quiet s) := rfl
    simp only [bind_ok, hx]
    by_cases he : Path.exists_ s.world t = true
    · rw [if_pos he, if_pos he]; rfl
    · rw [if_neg he, if_neg he]
      cases Str.create E z with
      | ok b =>
        simp only [bind_ok]
        cases Str.createCapacity E (wadd b.len 1) with
        | ok sf =>
          simp only [bind_ok]
          cases getc z 0 with
          | ok c =>
            simp only [bind_ok]
            cases (if c = 47 then Str.append E sf Path.sepZ else .ok sf) with
            | ok sf =>
              simp only [bind_ok]
              cases Str.split E k b Path.sepZ with
              | ok dl =>
                simp only [bind_ok]
                cases dl with
                | none => rfl
                | some l =>
                  simp only
                  have := quiet_mkdirLoop (E := E) l sf (next quiet s)
                  rw [quiet_next] at this
                  rw [← this]
                  cases Race.mkdirLoop E quiet l sf (next quiet s) <;> rfl
              | _ => rfl
            | _ => rfl
          | _ => rfl
        | _ => rfl
      | _ => rfl
  | _ => rfl

/-- **C137.** If nobody else does anything, the functions do what the other properties (C61, C62, C63, C86) say of them. -/
theorem C137_quiet (E : Env) (k : Nat) (z : Mem) (t t2 : Text) (ign : Bool) (pl : List Arr) (s : Now) :
    seen (Race.mkdir quiet t s) = (Path.mkdir s.world t).swap ∧ seen (Race.rmdir quiet t s) = (Path.rmdir s.world t).swap ∧
    seen (Race.remove quiet t s) = (Path.remove s.world t).swap ∧ seen (Race.rename quiet t t2 s) = (Path.rename s.world t t2).swap ∧
    (Race.dirListRecurse E quiet ign k pl z s).mapOk seen = (Path.dirListRecurse E s.world ign k pl z).mapOk (·, s.world) ∧
    (Race.rmdirRecurse E k quiet z s).mapOk seen = (Path.rmdirRecurse E k s.world z).mapOk Prod.swap ∧
    (Race.mkdirParents E k quiet z s).mapOk seen = (Path.mkdirParents E k s.world z).mapOk Prod.swap := by
  obtain ⟨h1, h2, h3, h4⟩ := quiet_single t t2 s
  refine ⟨h1, h2, h3, h4, quiet_dirListRecurse k pl z s rfl, ?_, quiet_mkdirParents k z s⟩
  unfold Race.rmdirRecurse Path.rmdirRecurse
  cases scanZ z with
  | ok t =>
    have hx : Race.exists_ quiet t s = (Path.exists_ s.world t, next quiet s) := rfl
    simp only [bind_ok, hx]
    by_cases he : (!Path.exists_ s.world t) = true
    · rw [if_pos he, if_pos he]; rfl
    · rw [if_neg he, if_neg he]
      have h1 := quiet_dirListRecurse (E := E) (ign := false) k [] z (next quiet s) rfl
      rw [quiet_next] at h1
      revert h1
      cases Race.dirListRecurse E quiet false k [] z (next quiet s) with
      | ok x =>
        obtain ⟨r, s'⟩ := x
        cases Path.dirListRecurse E s.world false k [] z with
        | ok r' =>
          intro h1
          simp only [mapOk, seen, ok.injEq, Prod.mk.injEq] at h1
          obtain ⟨rfl, hs'⟩ := h1
          simp only [bind_ok, ← hs']
          have hr := (quiet_single t t s').2.1
          cases r with
          | none => simp only [mapOk, hr]
          | some l =>
            cases l with
            | nil => simp only [mapOk, hr]
            | cons a l => exact quiet_rmdirLoop t (a :: l) s'
        | _ => intro h1; cases h1
      | _ =>
        cases Path.dirListRecurse E s.world false k [] z with
        | ok r' => intro h1; cases h1
        | _ => intro h1; first | (cases h1; done) | (cases h1; rfl)
  | _ => rfl

/-! ### One entry -/

/-- What the file system is after `m` more calls of the system that do not change it. -/
def Spec.moment (o : Others) : Nat → Now → Now
  | 0, s => s
  | m + 1, s => Spec.moment o m (next o s)

theorem moment_add (o : Others) : ∀ (a b : Nat) (s : Now), moment o (a + b) s = moment o b (moment o a s)
  | 0, b, s => by rw [Nat.zero_add]; rfl
  | a + 1, b, s => by rw [Nat.succ_add]; exact moment_add o a b (next o s)

theorem walk1_notlink {w : World} {q : Fs.Path} (hq : ∀ x, kind w q ≠ some (.link x)) {r r' : Fs.Path → List Name → Option Fs.Path}
    (hr : ∀ cur cs, r' cur cs = some q → r cur cs = some q) :
    ∀ (cs : List Name) (cur : Fs.Path), walk1 w false r' cur cs = some q → walk1 w true r cur cs = some q := by
  intro cs
  induction cs with
  | nil => intro cur h; exact h
  | cons c cs ih =>
    intro cur hp
    rw [walk1] at hp ⊢
    by_cases h1 : kind w cur ≠ some .dir
    · rw [if_pos h1] at hp; cases hp
    · rw [if_neg h1] at hp ⊢
      by_cases h2 : c = [46]
      · rw [if_pos h2] at hp ⊢; exact ih _ hp
      · rw [if_neg h2] at hp ⊢
        by_cases h3 : c = [46, 46]
        · rw [if_pos h3] at hp ⊢; exact ih _ hp
        · rw [if_neg h3] at hp ⊢
          cases hx : kind w (cur ++ [c]) with
          | none => rw [hx] at hp; exact hp
          | some k =>
            rw [hx] at hp
            cases k with
            | link x =>
              simp only [Bool.true_eq_false, and_false, if_false]
              simp only at hp
              split at hp
              · injection hp with hp
                exact absurd (hp ▸ hx) (hq x)
              · exact hr _ _ hp
            | dir => exact ih _ hp
            | file b => exact ih _ hp

theorem walk_notlink {w : World} {q : Fs.Path} (hq : ∀ x, kind w q ≠ some (.link x)) : ∀ (l : Nat) (cur : Fs.Path) (cs : List Name),
    walk w false l cur cs = some q → walk w true l cur cs = some q
  | 0, cur, cs, hp => walk1_notlink hq (by simp) cs cur hp
  | l + 1, cur, cs, hp => walk1_notlink hq (walk_notlink hq l) cs cur hp

theorem fs_mkdir_some {w w' : World} {t : Text} (h : Fs.mkdir w t = some w') : stat w t = none ∧ ∃ p, resolve w false t = some p ∧ kind w p = none ∧
    ∀ q, kind w' q = if q = p then some .dir else kind w q := by
  unfold Fs.mkdir at h
  cases hr : resolve w false t with
  | none => rw [hr] at h; cases h
  | some p =>
    rw [hr] at h
    simp only [Option.bind_eq_bind, Option.bind_some] at h
    split at h
    · rename_i hc
      injection h with h
      subst h
      refine ⟨?_, p, rfl, hc.1, fun q => kind_add hc.1 .dir q⟩
      obtain ⟨h0, h1, h2⟩ := resolve_some hr
      have : resolve w true t = some p := by
        rw [resolve_eq h0 h1]
        exact walk_notlink (by rw [hc.1]; simp) 40 _ _ h2
      simp [stat, this, hc.1]
    · cases h

theorem fs_rmdir_some {w w' : World} {t : Text} (h : Fs.rmdir w t = some w') : ∃ p, resolve w false t = some p ∧ kind w p = some .dir ∧ names w p = [] ∧
    ∀ q, kind w' q = if q = p then none else kind w q := by
  unfold Fs.rmdir at h
  cases hr : resolve w false t with
  | none => rw [hr] at h; cases h
  | some p =>
    rw [hr] at h
    simp only [Option.bind_eq_bind, Option.bind_some] at h
    split at h
    · rename_i hc
      injection h with h
      subst h
      exact ⟨p, rfl, hc.1, hc.2.2.1, kind_without hc.2.1⟩
    · cases h

theorem fs_remove_some {w w' : World} {t : Text} (h : Fs.remove w t = some w') : ∃ p k, resolve w false t = some p ∧ kind w p = some k ∧ (k = .dir → names w p = []) ∧
    ∀ q, kind w' q = if q = p then none else kind w q := by
  unfold Fs.remove at h
  cases hr : resolve w false t with
  | none => rw [hr] at h; cases h
  | some p =>
    rw [hr] at h
    simp only [Option.bind_eq_bind, Option.bind_some] at h
    cases hk : kind w p with
    | none => rw [hk] at h; cases h
    | some k =>
      rw [hk] at h
      simp only [Option.bind_some] at h
      by_cases hd : k = .dir
      · rw [if_pos hd] at h
        obtain ⟨p', h1, -, h3, h4⟩ := fs_rmdir_some h
        rw [hr] at h1
        injection h1 with h1
        subst h1
        exact ⟨p, k, rfl, hk, fun _ => h3, h4⟩
      · rw [if_neg hd] at h
        split at h
        · injection h with h
          subst h
          refine ⟨p, k, rfl, hk, fun h => absurd h hd, kind_without ?_⟩
          rintro rfl
          rw [kind_nil] at hk
          injection hk with hk
          exact hd hk.symm
        · cases h

theorem race_exists {o : Others} {t : Text} {s : Now} {b : Bool} (h : Path.exists_ (next o s).world t = b) : Race.exists_ o t s = (b, next o s) := by rw [Race.exists_, h]

theorem race_mkdir_there {o : Others} {t : Text} {s : Now} (h : Path.exists_ (next o s).world t = true) : Race.mkdir o t s = (true, next o s) := by
  rw [Race.mkdir, race_exists h]; rfl

theorem race_mkdir_not {o : Others} {t : Text} {s : Now} (h : Path.exists_ (next o s).world t = false) : Race.mkdir o t s = Race.change o (Fs.mkdir · t) (next o s) := by
  rw [Race.mkdir, race_exists h]; rfl

theorem race_remove_not {o : Others} {t : Text} {s : Now} (h : Path.exists_ (next o s).world t = false) :
    Race.rmdir o t s = (false, next o s) ∧ Race.remove o t s = (false, next o s) := by
  rw [Race.rmdir, Race.remove, race_exists h]; exact ⟨rfl, rfl⟩

theorem race_remove_there {o : Others} {t : Text} {s : Now} (h : Path.exists_ (next o s).world t = true) :
    Race.rmdir o t s = Race.change o (Fs.rmdir · t) (next o s) ∧ Race.remove o t s = Race.change o (Fs.remove · t) (next o s) := by
  rw [Race.rmdir, Race.remove, race_exists h]; exact ⟨rfl, rfl⟩

theorem race_fileSize_not {o : Others} {t : Text} {s : Now} (h : Path.exists_ (next o s).world t = false) : Race.fileSize o t s = (-1, next o s) := by
  rw [Race.fileSize, race_exists h]; rfl

theorem race_fileSize_there {o : Others} {t : Text} {s : Now} (h : Path.exists_ (next o s).world t = true) :
    Race.fileSize o t s = (Path.fileSize (next o (next o s)).world t, next o (next o s)) := by rw [Race.fileSize, race_exists h]; rfl

theorem change_none {o : Others} {f : World → Option World} {s : Now} (h : f (next o s).world = none) : Race.change o f s = (false, next o s) := by simp [Race.change, h]

theorem change_some {o : Others} {f : World → Option World} {s : Now} {w : World} (h : f (next o s).world = some w) :
    Race.change o f s = (true, { next o s with world := w }) := by simp [Race.change, h]

/-- **C137** `vt_path_mkdir` while others change the file system: if it returns false, it has changed nothing itself; if it returns true, then the path
existed when it was looked at and the call has changed nothing, or the call has made a directory where nothing was. -/
theorem C137_mkdir (o : Others) (t : Text) (s : Now) :
    ((Race.mkdir o t s).1 = false → (Race.mkdir o t s).2 = moment o 2 s) ∧
    ((Race.mkdir o t s).1 = true →
      (stat (moment o 1 s).world t ≠ none ∧ (Race.mkdir o t s).2 = moment o 1 s) ∨
      (∃ p, resolve (moment o 2 s).world false t = some p ∧ kind (moment o 2 s).world p = none ∧
        ∀ q, kind (Race.mkdir o t s).2.world q = if q = p then some .dir else kind (moment o 2 s).world q)) := by
  cases hs : Path.exists_ (next o s).world t with
  | true =>
    rw [race_mkdir_there hs]
    refine ⟨by simp, fun _ => .inl ⟨?_, rfl⟩⟩
    rw [Path.exists_, Option.isSome_iff_ne_none] at hs
    exact hs
  | false =>
    rw [race_mkdir_not hs]
    cases hm : Fs.mkdir (next o (next o s)).world t with
    | none => rw [change_none hm]; exact ⟨fun _ => rfl, by simp⟩
    | some w' => rw [change_some hm]; exact ⟨by simp, fun _ => .inr (fs_mkdir_some hm).2⟩

/-- **C137** (counterexample) Whenever somebody else makes the path between the check and the making, the answer is false although the path exists (and
a single call without others would have returned true either way). -/
theorem C137_mkdir_lost_race {o : Others} {t : Text} {s : Now} (h1 : stat (moment o 1 s).world t = none) (h2 : stat (moment o 2 s).world t ≠ none) :
    (Race.mkdir o t s).1 = false ∧ stat (Race.mkdir o t s).2.world t ≠ none := by
  rw [race_mkdir_not (by rw [Path.exists_, show stat (next o s).world t = none from h1]; rfl)]
  cases hm : Fs.mkdir (next o (next o s)).world t with
  | none => rw [change_none hm]; exact ⟨rfl, h2⟩
  | some w' => exact absurd (fs_mkdir_some hm).1 h2

/-- **C137** `vt_path_rmdir` and `vt_path_remove` while others change the file system: if they return false, they have changed nothing themselves; if they
return true, then they have removed exactly one entry, the one that had the name at that moment, and no directory with entries. -/
theorem C137_remove (o : Others) (t : Text) (s : Now) (r : Bool × Now) (h : r = Race.rmdir o t s ∨ r = Race.remove o t s) :
    (r.1 = false → r.2 = moment o 1 s ∨ r.2 = moment o 2 s) ∧
    (r.1 = true → ∃ p k, resolve (moment o 2 s).world false t = some p ∧ kind (moment o 2 s).world p = some k ∧ (k = .dir → names (moment o 2 s).world p = []) ∧
      ∀ q, kind r.2.world q = if q = p then none else kind (moment o 2 s).world q) := by
  cases hs : Path.exists_ (next o s).world t with
  | false =>
    rw [(race_remove_not hs).1, (race_remove_not hs).2, or_self] at h
    subst h
    exact ⟨fun _ => .inl rfl, by simp⟩
  | true =>
    rw [(race_remove_there hs).1, (race_remove_there hs).2] at h
    rcases h with rfl | rfl
    · cases hm : Fs.rmdir (next o (next o s)).world t with
      | none => rw [change_none hm]; exact ⟨fun _ => .inr rfl, by simp⟩
      | some w' =>
        rw [change_some hm]
        obtain ⟨p, h1, h2, h3, h4⟩ := fs_rmdir_some hm
        exact ⟨by simp, fun _ => ⟨p, .dir, h1, h2, fun _ => h3, h4⟩⟩
    · cases hm : Fs.remove (next o (next o s)).world t with
      | none => rw [change_none hm]; exact ⟨fun _ => .inr rfl, by simp⟩
      | some w' => rw [change_some hm]; exact ⟨by simp, fun _ => fs_remove_some hm⟩

/-! ### Reading -/

/-- **C137** `vt_file_read` while others change the file system and the file: `n` is the size that is asked for, `d` what the file holds when it is read.
The result is NULL exactly if the file could not be opened, or its name was gone when its size was asked for, or it had become shorter than that; if not,
it is the first `n` bytes of what the file holds at the end. -/
theorem C137_read {E : Env} {o : Others} {z : Mem} {t : Text} (hz : CStr z t) (d : List UInt8) (s : Now) {n : Nat}
    (hn : stat (moment o 3 s).world t ≠ none → Path.fileSize (moment o 3 s).world t = n) (h0 : 0 < n ∨ E.debug = false) (hlen : n < 2 ^ 63) :
    OkOr E (n + 56) (Race.read E o z d s) fun r => (∃ m, m ≤ 4 ∧ r.2 = moment o m s) ∧
      (r.1 = none ↔ openR (moment o 1 s).world t = none ∨ stat (moment o 2 s).world t = none ∨ stat (moment o 3 s).world t = none ∨ d.length < n) ∧
      ∀ v, r.1 = some v → HoldsBytes v (d.take n) := by
  simp only [moment] at hn ⊢
  unfold Race.read
  rw [hz.text, bind_ok]
  simp only
  cases ho : openR (next o s).world t with
  | none => exact OkOr.ok ⟨⟨1, by omega, rfl⟩, by simp, by simp⟩
  | some d0 =>
    cases h2 : stat (next o (next o s)).world t with
    | none =>
      rw [race_fileSize_not (by rw [Path.exists_, h2]; rfl)]
      simp only
      rw [if_pos (by decide)]
      exact OkOr.ok ⟨⟨2, by omega, rfl⟩, by simp, by simp⟩
    | some k2 =>
      rw [race_fileSize_there (by rw [Path.exists_, h2]; rfl)]
      simp only
      cases h3 : stat (next o (next o (next o s))).world t with
      | none =>
        rw [show Path.fileSize (next o (next o (next o s))).world t = -1 by rw [Path.fileSize, h3], if_pos (by decide)]
        exact OkOr.ok ⟨⟨3, by omega, rfl⟩, by simp, by simp⟩
      | some k3 =>
        rw [hn (by rw [h3]; simp), if_neg (by omega), Int.toNat_natCast]
        refine (createLen_okOr' h0 hlen).bind ?_
        rintro b ⟨hb, hcap⟩
        have hblen : b.len = n := by rw [hb.len, List.length_replicate]
        obtain ⟨c, hc, hcl⟩ : ∃ c : Mem, b.mem = c ++ [some 0] ∧ c.length = n := by
          obtain ⟨⟨rest, e⟩, -⟩ := scanZ_eq_ok.1 hb.text
          have := hb.size
          rw [e, hcap] at this
          simp at this
          have : rest = [] := this
          subst this
          exact ⟨_, e, by simp⟩
        have hf : FileIo.fread b.mem b.len d = .ok (min n d.length, (d.take n).map some ++ b.mem.drop (d.take n).length) := by
          unfold FileIo.fread
          rw [hblen, writeN_ok (by rw [hc]; simp; omega), bind_ok]
          simp
        rw [hf, bind_ok]
        by_cases hd : d.length < n
        · rw [if_pos (by simp only [hblen]; omega)]
          exact OkOr.ok ⟨⟨4, by omega, rfl⟩, by simp [hd], by simp⟩
        · rw [if_neg (by simp only [hblen]; omega)]
          refine OkOr.ok ⟨⟨4, by omega, rfl⟩, by simp [hd], ?_⟩
          intro v hv
          injection hv with hv
          subst hv
          have hl : (d.take n).length = n := by simp; omega
          refine ⟨hb.es, by rw [hl]; exact hblen, by rw [hl]; exact hcap, ?_⟩
          simp only [hl]
          rw [hc, ← hcl, List.drop_left]

/-- **C137** `vt_file_read_to_buffer` likewise: whatever the others do, nothing behind the first `n` bytes of the buffer is touched.  If false is
returned, the buffer may have been written over, with the first bytes of the file. -/
theorem C137_read_to_buffer {E : Env} {o : Others} {z : Mem} {t : Text} (hz : CStr z t) {buf : Mem} {n : Nat} (hn : 0 < n ∨ E.debug = false) (hb : n ≤ buf.length)
    (d : List UInt8) (s : Now) :
    ∃ r, Race.readToBuffer E o z buf n d s = .ok r ∧ (∃ m, m ≤ 4 ∧ r.2 = moment o m s) ∧ r.1.2.length = buf.length ∧ r.1.2.drop n = buf.drop n ∧
      ∃ k, k ≤ n ∧ r.1.2 = (d.take k).map some ++ buf.drop (d.take k).length ∧ (r.1.1 = true → k ≤ d.length ∧ (k = n ∨ Path.fileSize (moment o 3 s).world t = k)) := by
  have stay : ∀ m, m ≤ 4 → ∃ r, Out.ok ((false, buf), moment o m s) = .ok r ∧ (∃ m, m ≤ 4 ∧ r.2 = moment o m s) ∧ r.1.2.length = buf.length ∧ r.1.2.drop n = buf.drop n ∧
      ∃ k, k ≤ n ∧ r.1.2 = (d.take k).map some ++ buf.drop (d.take k).length ∧ (r.1.1 = true → k ≤ d.length ∧ (k = n ∨ Path.fileSize (moment o 3 s).world t = k)) :=
    fun m hm => ⟨_, rfl, ⟨m, hm, rfl⟩, rfl, rfl, 0, by omega, by simp, by simp⟩
  unfold Race.readToBuffer
  rw [hz.text, bind_ok, dassert_pos hn, bind_ok]
  simp only
  cases ho : openR (next o s).world t with
  | none => exact stay 1 (by omega)
  | some d0 =>
    cases hx : Path.exists_ (next o (next o s)).world t with
    | false =>
      rw [race_fileSize_not hx]
      simp only
      rw [if_pos (by decide)]
      exact stay 2 (by omega)
    | true =>
      rw [race_fileSize_there hx]
      simp only
      split
      · exact stay 3 (by omega)
      · rename_i hsz
        have hkn : (if n ≤ (Path.fileSize (next o (next o (next o s))).world t).toNat then n else (Path.fileSize (next o (next o (next o s))).world t).toNat) ≤ n := by
          split <;> omega
        have hks : (if n ≤ (Path.fileSize (next o (next o (next o s))).world t).toNat then n else (Path.fileSize (next o (next o (next o s))).world t).toNat) = n ∨
            Path.fileSize (moment o 3 s).world t =
              ((if n ≤ (Path.fileSize (next o (next o (next o s))).world t).toNat then n else (Path.fileSize (next o (next o (next o s))).world t).toNat : Nat) : Int) := by
          split
          · exact .inl rfl
          · right
            simp only [moment]
            omega
        generalize (if n ≤ (Path.fileSize (next o (next o (next o s))).world t).toNat then n else (Path.fileSize (next o (next o (next o s))).world t).toNat) = k at hkn hks
        have hle : (d.take k).length ≤ n := by simp; omega
        have hf : FileIo.fread buf k d = .ok (min k d.length, (d.take k).map some ++ buf.drop (d.take k).length) := by
          unfold FileIo.fread
          rw [writeN_ok (by simp at hle ⊢; omega), bind_ok]
          simp
        rw [hf, bind_ok]
        have hl : ((d.take k).map some ++ buf.drop (d.take k).length).length = buf.length := by
          simp only [List.length_append, List.length_map, List.length_drop]; omega
        have hdrop : ((d.take k).map some ++ buf.drop (d.take k).length).drop n = buf.drop n := by
          rw [List.drop_append, List.drop_eq_nil_of_le (by simpa using hle), List.nil_append, List.drop_drop]
          congr 1
          simp only [List.length_map]; omega
        by_cases hc : min k d.length ≠ k
        · rw [if_pos hc]
          exact ⟨_, rfl, ⟨4, by omega, rfl⟩, hl, hdrop, k, hkn, rfl, by simp⟩
        · rw [if_neg hc]
          exact ⟨_, rfl, ⟨4, by omega, rfl⟩, hl, hdrop, k, hkn, rfl, fun _ => ⟨by omega, hks⟩⟩

/-! ### Listing -/

namespace Spec

/-- Every text of `L` is a name that a directory had at one of the `m` moments after `s` (and that is not left out), the directory being `t` or itself in
`L`; nothing is there twice, and what is below a directory stands before it. -/
structure SeenThere (o : Others) (ign : Bool) (s : Now) (m : Nat) (t : Text) (L : List Text) : Prop where
  was : ∀ v ∈ L, ∃ j u n ns, j ≤ m ∧ v = u ++ 47 :: n ∧ readdir (moment o j s).world u = some ns ∧ n ∈ ns ∧ shown ign n = true ∧ (u = t ∨ u ∈ L)
  once : L.Nodup
  order : L.Pairwise fun a b => ¬ Under a b

end Spec

/-- As `SeenThere`, for the rest `ns` of the names of the directory `t`. -/
structure SeenRest (o : Others) (ign : Bool) (s : Now) (m : Nat) (t : Text) (ns : List Name) (L : List Text) : Prop where
  was : ∀ v ∈ L, (∃ n ∈ ns, v = t ++ 47 :: n ∧ shown ign n = true) ∨
    ∃ j u n ms, j ≤ m ∧ v = u ++ 47 :: n ∧ readdir (moment o j s).world u = some ms ∧ n ∈ ms ∧ shown ign n = true ∧ u ∈ L
  under : ∀ v ∈ L, ∃ n ∈ ns, v = t ++ 47 :: n ∨ Under (t ++ 47 :: n) v
  once : L.Nodup
  order : L.Pairwise fun a b => ¬ Under a b

/-- The specification of the recursive call. -/
def RecRace (E : Env) (o : Others) (ign : Bool) (rec : List Arr → Mem → Now → Out (Option (List Arr) × Now)) (u : Text) : Prop :=
  ∀ z, CStr z u → ∀ pl s, Wf s.world → OkOr E (maxPath + 312) (rec pl z s) fun r => ∃ m, r.2 = moment o m s ∧
    (r.1 = none ∨ ∃ l L, r.1 = some (pl ++ l) ∧ List.Forall₂ IsStr l L ∧ SeenThere o ign s m u L ∧ ∀ v ∈ L, Under u v)

theorem moment_wf {o : Others} (ho : ∀ i w, Wf w → Wf (o i w)) : ∀ (m : Nat) (s : Now), Wf s.world → Wf (moment o m s).world
  | 0, _, h => h
  | m + 1, s, h => moment_wf ho m (next o s) (ho _ _ h)

theorem race_recurseLoop {E : Env} {o : Others} (ho : ∀ i w, Wf w → Wf (o i w)) {ign : Bool} {z : Mem} {t : Text} (hz : CStr z t) (ht0 : t ≠ []) (hlen0 : t.length < maxPath)
    {rec : List Arr → Mem → Now → Out (Option (List Arr) × Now)} (hrec : ∀ n, n ≠ [] → (t ++ 47 :: n).length < maxPath → RecRace E o ign rec (t ++ 47 :: n)) :
    ∀ (ns : List Name), (∀ n ∈ ns, GoodName n) → ns.Nodup → ∀ (st : Arr) (pl : List Arr) (s : Now), Wf s.world → IsStr st [] →
      OkOr E (maxPath + 312) (Race.recurseLoop E o ign z rec ns st pl s) fun r => ∃ m, r.2 = moment o m s ∧
        ∃ l L, r.1 = pl ++ l ∧ List.Forall₂ IsStr l L ∧ SeenRest o ign s m t ns L := by
  intro ns
  induction ns with
  | nil =>
    intro _ _ st pl s _ _
    rw [Race.recurseLoop]
    exact OkOr.ok ⟨0, rfl, [], [], by simp, by simp, by simp, by simp, by simp, by simp⟩
  | cons n ns ih =>
    intro hg hnd st pl s hw hst
    rw [List.nodup_cons] at hnd
    have hn := hg n (by simp)
    have hgs : ∀ m ∈ ns, GoodName m := fun m hm => hg m (by simp [hm])
    have ih := ih hgs hnd.2
    have hnl := hn.len
    rw [Race.recurseLoop, skip_ok hn, bind_ok]
    by_cases hc : ign = true ∧ n.head? = some 46
    · rw [if_pos (by simpa using hc)]
      refine (ih st pl s hw hst).mono ?_ (Nat.le_refl _)
      rintro r ⟨m, h1, l, L, h2, h3, h4⟩
      refine ⟨m, h1, l, L, h2, h3, ?_, ?_, h4.once, h4.order⟩
      · intro v hv
        rcases h4.was v hv with ⟨n', hn', e⟩ | h
        · exact .inl ⟨n', by simp [hn'], e⟩
        · exact .inr h
      · intro v hv
        obtain ⟨n', hn', e⟩ := h4.under v hv
        exact ⟨n', by simp [hn'], e⟩
    · rw [if_neg (by simpa using hc)]
      have hshown : shown ign n = true := by
        have hd1 := hn.dot
        have hd2 := hn.dotdot
        simp only [shown]
        rcases Bool.eq_false_or_eq_true ign with h | h <;> simp_all
      refine (append_okOr hst hz ht0).bind ?_
      rintro s1 ⟨h1, -, -⟩
      refine (append_okOr h1 sepZ_cstr (by simp)).bind ?_
      rintro s2 ⟨h2, -, -⟩
      refine (append_okOr h2 (nameMem_cstr hn) hn.ne).bind ?_
      rintro s3 ⟨h3, -, -⟩
      have h3 : IsStr s3 (t ++ 47 :: n) := by simpa using h3
      rw [show Str.z s3 = .ok (t ++ 47 :: n) from h3.text, bind_ok]
      have fin : ∀ (l : List Arr) (L : List Text) (m : Nat), List.Forall₂ IsStr l L → SeenThere o ign (next o s) m (t ++ 47 :: n) L → (∀ v ∈ L, Under (t ++ 47 :: n) v) →
          OkOr E (maxPath + 312) (do
            let d ← Str.dup E s3
            let st ← Str.clear s3
            Race.recurseLoop E o ign z rec ns st (pl ++ l ++ [d]) (moment o m (next o s))) fun r => ∃ m, r.2 = moment o m s ∧
            ∃ l L, r.1 = pl ++ l ∧ List.Forall₂ IsStr l L ∧ SeenRest o ign s m t (n :: ns) L := by
        intro l L m hl hL hU
        refine (create_text_okOr h3.cstr (by simp)).bind fun dn hdn => ?_
        obtain ⟨s4, e4, h4, -, -⟩ := clear_ok h3
        rw [e4, bind_ok]
        refine (ih s4 (pl ++ l ++ [dn]) _ (moment_wf ho _ _ (ho _ _ hw)) h4).mono ?_ (Nat.le_refl _)
        rintro r ⟨m', hr2, l', L', hr1, hl', hP'⟩
        obtain ⟨p1, p2⟩ := parts_cons hn.sep (fun x hx => (hgs x hx).sep) hnd.1 hP'.under hP'.once hP'.order hU hL.once hL.order
        refine ⟨m + 1 + m', ?_, l ++ dn :: l', L ++ (t ++ 47 :: n) :: L', by simp [hr1], List.rel_append hl (.cons hdn hl'), ?_, ?_, p1, p2⟩
        · rw [hr2, moment_add]; rfl
        · intro v hv
          rcases List.mem_append.1 hv with hv | hv
          · obtain ⟨j, u, a, ms, h1, h2, h3, h4, h5, h6⟩ := hL.was v hv
            refine .inr ⟨j + 1, u, a, ms, by omega, h2, h3, h4, h5, ?_⟩
            rcases h6 with rfl | h6
            · simp
            · simp [h6]
          · rcases List.mem_cons.1 hv with rfl | hv
            · exact .inl ⟨n, by simp, rfl, hshown⟩
            · rcases hP'.was v hv with ⟨a, h1, h2, h3⟩ | ⟨j, u, a, ms, h1, h2, h3, h4, h5, h6⟩
              · exact .inl ⟨a, by simp [h1], h2, h3⟩
              · refine .inr ⟨m + 1 + j, u, a, ms, by omega, h2, ?_, h4, h5, by simp [h6]⟩
                rw [moment_add]; exact h3
        · intro v hv
          rcases List.mem_append.1 hv with hv | hv
          · exact ⟨n, by simp, .inr (hU v hv)⟩
          · rcases List.mem_cons.1 hv with rfl | hv
            · exact ⟨n, by simp, .inl rfl⟩
            · obtain ⟨a, h1, h2⟩ := hP'.under v hv
              exact ⟨a, by simp [h1], h2⟩
      rw [show Race.isDir o (t ++ 47 :: n) s = (Path.isDir (next o s).world (t ++ 47 :: n), next o s) from rfl]
      simp only
      by_cases hdir : Path.isDir (next o s).world (t ++ 47 :: n) = true
      · rw [if_pos hdir]
        obtain ⟨e, he, hke⟩ := isDir_resolve hdir
        refine (hrec n hn.ne (resolve_some he).2.1 s3.mem h3.cstr pl (next o s) (ho _ _ hw)).bind ?_ (Nat.le_refl _)
        rintro ⟨r, s'⟩ ⟨m, hs', hr | ⟨l, L, hr, hl, hL, hU⟩⟩
        · simp only at hs' hr
          subst hr hs'
          exact OkOr.ok ⟨m + 1, rfl, [], [], by simp, by simp, by simp, by simp, by simp, by simp⟩
        · simp only at hs' hr
          subst hr hs'
          exact fin l L m hl hL hU
      · rw [if_neg hdir, bind_ok]
        have := fin [] [] 0 (by simp) ⟨by simp, by simp, by simp⟩ (by simp)
        simpa [moment] using this

theorem race_dirListRecurse {E : Env} {o : Others} (ho : ∀ i w, Wf w → Wf (o i w)) {ign : Bool} :
    ∀ (k : Nat) {t : Text}, 0 < k → maxPath ≤ t.length + k → RecRace E o ign (Race.dirListRecurse E o ign k) t := by
  intro k
  induction k with
  | zero => intro t h; omega
  | succ k ih =>
    intro t _ hk z hz pl s hw
    rw [Race.dirListRecurse, hz.text, bind_ok]
    cases hex : Path.exists_ (next o s).world t with
    | false => rw [race_exists hex]; exact OkOr.ok ⟨1, rfl, .inl rfl⟩
    | true =>
      rw [race_exists hex]
      simp only [Bool.not_true, Bool.false_eq_true, if_false]
      have hw2 : Wf (next o (next o s)).world := ho _ _ (ho _ _ hw)
      cases hrd : readdir (next o (next o s)).world t with
      | none => exact OkOr.ok ⟨2, rfl, .inl rfl⟩
      | some ns =>
        obtain ⟨d, hr, hd, rfl⟩ := readdir_some hrd
        obtain ⟨ht0, hlen0, -⟩ := resolve_some hr
        refine (createCapacity_okOr (by decide) (by decide)).bind ?_ (by unfold maxPath defaultInit; omega)
        intro st hst
        rw [Race.recurseLoop, (skip_dots ign).1, bind_ok, if_pos rfl, Race.recurseLoop, (skip_dots ign).2, bind_ok, if_pos rfl]
        have hrec : ∀ n, n ≠ [] → (t ++ 47 :: n).length < maxPath → RecRace E o ign (Race.dirListRecurse E o ign k) (t ++ 47 :: n) := by
          intro n hn h1
          have h2 := List.length_pos_iff.2 hn
          simp only [List.length_append, List.length_cons] at h1
          exact ih (by omega) (by simp only [List.length_append, List.length_cons]; omega)
        refine (race_recurseLoop ho hz ht0 hlen0 hrec _ (names_good hw2) (names_nodup hw2 d) st pl _ hw2 hst.1).bind ?_ (Nat.le_refl _)
        rintro ⟨r, s'⟩ ⟨m, hs', l, L, hr', hl, hP⟩
        simp only at hs' hr'
        subst hs' hr'
        refine OkOr.ok ⟨m + 2, rfl, .inr ⟨l, L, rfl, hl, ⟨?_, hP.once, hP.order⟩, ?_⟩⟩
        · intro v hv
          rcases hP.was v hv with ⟨n, h1, h2, h3⟩ | ⟨j, u, n, ms, h1, h2, h3, h4, h5, h6⟩
          · exact ⟨2, t, n, _, by omega, h2, hrd, by simp [h1], h3, .inl rfl⟩
          · exact ⟨j + 2, u, n, ms, by omega, h2, h3, h4, h5, .inr h6⟩
        · intro v hv
          obtain ⟨n, h1, h2⟩ := hP.under v hv
          rcases h2 with rfl | ⟨r, rfl⟩
          · exact ⟨n, rfl⟩
          · exact ⟨n ++ 47 :: r, by simp⟩

/-- **C137** `vt_path_dir_list_recurse` while others change the file system: it ends (nothing undefined happens), changes nothing itself, and whatever it
lists was in its directory at some moment of the call, the directories being listed too, after what is in them. -/
theorem C137_list {E : Env} {o : Others} (ho : ∀ i w, Wf w → Wf (o i w)) {s : Now} (hw : Wf s.world) {z : Mem} {t : Text} (hz : CStr z t) (ign : Bool) (pl : List Arr) :
    OkOr E (maxPath + 312) (Race.dirListRecurse E o ign maxPath pl z s) fun r => ∃ m, r.2 = moment o m s ∧
      (r.1 = none ∨ ∃ l L, r.1 = some (pl ++ l) ∧ List.Forall₂ IsStr l L ∧ SeenThere o ign s m t L ∧ ∀ v ∈ L, Under t v) :=
  race_dirListRecurse ho maxPath (by decide) (by omega) z hz pl s hw

/-! ### Recursive removal and creation -/

theorem race_remove_inv {o : Others} {P : World → Prop} {t : Text} (ho : ∀ i w, P w → P (o i w)) (h1 : ∀ w w', P w → Fs.rmdir w t = some w' → P w')
    (h2 : ∀ w w', P w → Fs.remove w t = some w' → P w') {s : Now} (hs : P s.world) : P (Race.rmdir o t s).2.world ∧ P (Race.remove o t s).2.world := by
  have a := ho s.count _ hs
  have b := ho (s.count + 1) _ a
  cases hs : Path.exists_ (next o s).world t with
  | false => rw [(race_remove_not hs).1, (race_remove_not hs).2]; exact ⟨a, a⟩
  | true =>
    rw [(race_remove_there hs).1, (race_remove_there hs).2]
    constructor
    · cases hm : Fs.rmdir (next o (next o s)).world t with
      | none => rw [change_none hm]; exact b
      | some w' => rw [change_some hm]; exact h1 _ _ b hm
    · cases hm : Fs.remove (next o (next o s)).world t with
      | none => rw [change_none hm]; exact b
      | some w' => rw [change_some hm]; exact h2 _ _ b hm

theorem race_rmdirLoop {o : Others} {P : World → Prop} {t : Text} (ho : ∀ i w, P w → P (o i w))
    (h1 : ∀ v w w', v = t ∨ Under t v → P w → Fs.rmdir w v = some w' → P w') (h2 : ∀ v w w', v = t ∨ Under t v → P w → Fs.remove w v = some w' → P w') :
    ∀ (l : List Arr) (L : List Text), List.Forall₂ IsStr l L → (∀ v ∈ L, Under t v) → ∀ (s : Now), P s.world → ∃ r, Race.rmdirLoop o t l s = .ok r ∧ P r.2.world
  | [], L, _, _, s, hs => ⟨_, rfl, (race_remove_inv ho (fun w w' => h1 t w w' (.inl rfl)) (fun w w' => h2 t w w' (.inl rfl)) hs).1⟩
  | a :: l, _, .cons (b := v) (l₂ := L) ha hl, hL, s, hs => by
    rw [Race.rmdirLoop, show Str.z a = .ok v from ha.text, bind_ok]
    rw [show Race.isDir o v s = (Path.isDir (next o s).world v, next o s) from rfl]
    simp only
    have hv := hL v (by simp)
    obtain ⟨k1, k2⟩ := race_remove_inv ho (fun w w' => h1 v w w' (.inr hv)) (fun w w' => h2 v w w' (.inr hv)) (s := next o s) (ho _ _ hs)
    have ih := race_rmdirLoop ho h1 h2 l L hl (fun v hv => hL v (by simp [hv]))
    split
    · split
      · exact ih _ k1
      · exact ⟨_, rfl, k1⟩
    · split
      · exact ih _ k2
      · exact ⟨_, rfl, k2⟩

/-- **C137** `vt_path_rmdir_recurse` while others change the file system: it ends and nothing undefined happens; and whatever property of the file system
neither the others nor a removal of the path or of a path that begins with it and a separator destroys, is kept. -/
theorem C137_rmdir_recurse {E : Env} {o : Others} (ho : ∀ i w, Wf w → Wf (o i w)) {s : Now} (hw : Wf s.world) {z : Mem} {t : Text} (hz : CStr z t) {P : World → Prop}
    (hP : ∀ i w, P w → P (o i w)) (h1 : ∀ v w w', v = t ∨ Under t v → P w → Fs.rmdir w v = some w' → P w')
    (h2 : ∀ v w w', v = t ∨ Under t v → P w → Fs.remove w v = some w' → P w') (hs : P s.world) :
    OkOr E (maxPath + 312) (Race.rmdirRecurse E maxPath o z s) fun r => P r.2.world := by
  unfold Race.rmdirRecurse
  rw [hz.text, bind_ok]
  cases hex : Path.exists_ (next o s).world t with
  | false => rw [race_exists hex]; exact OkOr.ok (hP _ _ hs)
  | true =>
    rw [race_exists hex]
    simp only [Bool.not_true, Bool.false_eq_true, if_false]
    refine (C137_list ho (s := next o s) (ho _ _ hw) hz false []).bind ?_ (Nat.le_refl _)
    rintro ⟨r, s'⟩ ⟨m, hs', hr⟩
    simp only at hs' hr
    have hm : ∀ (m : Nat) (s : Now), P s.world → P (moment o m s).world := by
      intro m
      induction m with
      | zero => exact fun _ h => h
      | succ m ih => exact fun s h => ih _ (hP _ _ h)
    have hPs : P s'.world := hs' ▸ hm m _ (hP _ _ hs)
    have hone := race_remove_inv hP (fun w w' => h1 t w w' (.inl rfl)) (fun w w' => h2 t w w' (.inl rfl)) hPs
    rcases hr with rfl | ⟨l, L, rfl, hl, -, hU⟩
    · exact OkOr.ok hone.1
    · cases l with
      | nil => exact OkOr.ok hone.1
      | cons a l =>
        simp only [List.nil_append]
        obtain ⟨r, e, h⟩ := race_rmdirLoop hP h1 h2 (a :: l) L hl hU s' hPs
        rw [e]
        exact OkOr.ok h

/-- **C137** `vt_path_mkdir` and `vt_path_mkdir_parents` while others change the file system: what is there, and what the others leave there, stays. -/
theorem C137_mkdir_parents_keeps {E : Env} {o : Others} {q : Fs.Path} {x : Kind} (ho : ∀ i w, kind w q = some x → kind (o i w) q = some x) {s : Now} (hq : kind s.world q = some x) :
    (∀ t, kind (Race.mkdir o t s).2.world q = some x) ∧
    ∀ k z r, Race.mkdirParents E k o z s = .ok r → kind r.2.world q = some x := by
  have one : ∀ (t : Text) (s : Now), kind s.world q = some x → kind (Race.mkdir o t s).2.world q = some x := by
    intro t s hs
    have a := ho s.count _ hs
    have b := ho (s.count + 1) _ a
    cases hx : Path.exists_ (next o s).world t with
    | true => rw [race_mkdir_there hx]; exact a
    | false =>
      rw [race_mkdir_not hx]
      cases hm : Fs.mkdir (next o (next o s)).world t with
      | none => rw [change_none hm]; exact b
      | some w' =>
        obtain ⟨-, p, -, h2, h3⟩ := fs_mkdir_some hm
        rw [change_some hm]
        show kind w' q = some x
        rw [h3, if_neg]
        · exact b
        · rintro rfl
          have : kind (next o (next o s)).world q = some x := b
          rw [this] at h2
          cases h2
  have loop : ∀ (l : List Arr) (sf : Arr) (s s' : Now), Race.mkdirLoop E o l sf s = .ok s' → kind s.world q = some x → kind s'.world q = some x := by
    intro l
    induction l with
    | nil => intro sf s s' h hk; rw [Race.mkdirLoop] at h; injection h with h; exact h ▸ hk
    | cons a l ih =>
      intro sf s s' h hk
      rw [Race.mkdirLoop] at h
      obtain ⟨s1, -, h⟩ := bind_eq_ok.1 h
      obtain ⟨s2, -, h⟩ := bind_eq_ok.1 h
      obtain ⟨t, -, h⟩ := bind_eq_ok.1 h
      exact ih _ _ _ h (one t s hk)
  refine ⟨fun t => one t s hq, fun k z r h => ?_⟩
  have a := ho s.count _ hq
  unfold Race.mkdirParents at h
  obtain ⟨t, -, h⟩ := bind_eq_ok.1 h
  cases hex : Path.exists_ (next o s).world t with
  | true => rw [race_exists hex] at h; injection h with h; rw [← h]; exact a
  | false =>
    rw [race_exists hex] at h
    simp only [Bool.false_eq_true, if_false] at h
    obtain ⟨b, -, h⟩ := bind_eq_ok.1 h
    obtain ⟨sf, -, h⟩ := bind_eq_ok.1 h
    obtain ⟨c, -, h⟩ := bind_eq_ok.1 h
    obtain ⟨sf, -, h⟩ := bind_eq_ok.1 h
    obtain ⟨dl, -, h⟩ := bind_eq_ok.1 h
    cases dl with
    | none => injection h with h; rw [← h]; exact a
    | some l =>
      obtain ⟨s', h1, h⟩ := bind_eq_ok.1 h
      injection h with h
      rw [← h]
      exact loop _ _ _ _ h1 a

namespace Spec

/-- From `w` to `w'` nothing on the way down to `d` has changed but that directories may have been made. -/
structure Helps (d : Fs.Path) (w w' : World) : Prop where
  cwd : w'.cwd = w.cwd
  may : ∀ q, q <+: d → w'.mayCreate q = w.mayCreate q
  kinds : ∀ q, q <+: d → kind w' q = kind w q ∨ kind w' q = some .dir

end Spec

/-- The working directory is `c`, each directory down to `d` exists or may be made, and down to `p` they exist. -/
structure Underway (c d p : Fs.Path) (w : World) : Prop where
  cwd : w.cwd = c
  all : ∀ q, q <+: d → kind w q = some .dir ∨ kind w q = none ∧ w.mayCreate q = true
  there : ∀ q, q <+: p → kind w q = some .dir

theorem Underway.helped {c d p : Fs.Path} {w w' : World} (h : Underway c d p w) (hp : p <+: d) (hh : Helps d w w') : Underway c d p w' := by
  refine ⟨hh.cwd.trans h.cwd, fun q hq => ?_, fun q hq => ?_⟩
  · rcases hh.kinds q hq with e | e
    · rw [e, hh.may q hq]; exact h.all q hq
    · exact .inl e
  · rcases hh.kinds q (hq.trans hp) with e | e
    · rw [e]; exact h.there q hq
    · exact e

theorem Underway.made {c d p : Fs.Path} {n : Name} {w : World} (h : Underway c d p w) (hk : kind w (p ++ [n]) = some .dir) : Underway c d (p ++ [n]) w :=
  ⟨h.cwd, h.all, fun q hq => by
    rcases prefix_snoc.1 hq with h1 | rfl
    · exact h.there q h1
    · exact hk⟩

theorem underway_resolve {c d b : Fs.Path} {w : World} {t : Text} {cs : List Name} {n : Name} (hgood : ∀ m ∈ cs ++ [n], m ≠ [46] ∧ m ≠ [46, 46])
    (hcomps : comps t = cs ++ [n]) (hb : base w t = b) (ht : t ≠ []) (hlen : t.length < maxPath) (hd : b ++ (cs ++ [n]) <+: d) (h : Underway c d (b ++ cs) w) (f : Bool) :
    resolve w f t = some (b ++ (cs ++ [n])) := by
  rw [resolve_eq ht hlen, hb, hcomps, walk_plain _ _ _ hgood]
  · intro i hi
    apply h.there
    rw [List.prefix_append_right_inj, List.take_append_of_le_length (by simp at hi; omega)]
    exact List.take_prefix _ _
  · intro x hc
    rcases h.all _ hd with e | e
    · rw [e] at hc; cases hc
    · rw [e.1] at hc; cases hc

theorem race_mkdir_underway {o : Others} {c d b : Fs.Path} {t : Text} {cs : List Name} {n : Name} (ho : ∀ i w, Helps d w (o i w))
    (hgood : ∀ m ∈ cs ++ [n], m ≠ [46] ∧ m ≠ [46, 46]) (hcomps : comps t = cs ++ [n]) (hb : ∀ w : World, w.cwd = c → base w t = b) (ht : t ≠ [])
    (hlen : t.length < maxPath) (hd : b ++ (cs ++ [n]) <+: d) {s : Now} (h : Underway c d (b ++ cs) s.world) :
    Underway c d (b ++ (cs ++ [n])) (Race.mkdir o t s).2.world := by
  have hpd : b ++ cs <+: d := List.IsPrefix.trans ⟨[n], by simp⟩ hd
  have h1 : Underway c d (b ++ cs) (next o s).world := h.helped hpd (ho _ _)
  have h2 : Underway c d (b ++ cs) (next o (next o s)).world := h1.helped hpd (ho _ _)
  have r1 := underway_resolve hgood hcomps (hb _ h1.cwd) ht hlen hd h1 true
  have r2 := underway_resolve hgood hcomps (hb _ h2.cwd) ht hlen hd h2 false
  have e : b ++ (cs ++ [n]) = b ++ cs ++ [n] := by simp
  cases hx : Path.exists_ (next o s).world t with
  | true =>
    rw [race_mkdir_there hx, e]
    refine h1.made ?_
    rcases h1.all _ hd with k | k
    · rw [← e]; exact k
    · rw [Path.exists_, stat, r1] at hx
      simp [k.1] at hx
  | false =>
    rw [race_mkdir_not hx]
    rcases h2.all _ hd with k | k
    · rw [change_none, e]
      · exact h2.made (by rw [← e]; exact k)
      · simp [Fs.mkdir, r2, k]
    · have hm : Fs.mkdir (next o (next o s)).world t = some { (next o (next o s)).world with nodes := (next o (next o s)).world.nodes ++ [(b ++ (cs ++ [n]), .dir)] } := by
        simp [Fs.mkdir, r2, k.1, k.2]
      rw [change_some hm]
      refine ⟨h2.cwd, fun q hq => ?_, fun q hq => ?_⟩
      · rw [kind_added k.1]
        split
        · exact .inl rfl
        · exact h2.all q hq
      · rw [kind_added k.1]
        split
        · rfl
        · next hne =>
          rw [e] at hq
          rcases prefix_snoc.1 hq with h3 | rfl
          · exact h2.there q h3
          · exact absurd e.symm hne

theorem race_mkdirLoop {E : Env} {o : Others} {c d b : Fs.Path} {rt : Text} (ho : ∀ i w, Helps d w (o i w)) (hrt : rt = [47] ∧ b = [] ∨ rt = [] ∧ b = c) :
    ∀ (l : List Arr) (cs2 cs1 : List Name) (sfull : Arr) (s : Now), (∀ m ∈ cs1 ++ cs2, m ≠ [] ∧ 47 ∉ m ∧ m ≠ [46] ∧ m ≠ [46, 46]) →
    (rt ++ slashed (cs1 ++ cs2)).length < maxPath → d = b ++ (cs1 ++ cs2) → List.Forall₂ IsStr l cs2 → IsStr sfull (rt ++ slashed cs1) → Underway c d (b ++ cs1) s.world →
    OkOr E ((rt ++ slashed (cs1 ++ cs2)).length + 1) (Race.mkdirLoop E o l sfull s) fun r => Underway c d d r.world := by
  intro l
  induction l with
  | nil =>
    intro cs2 cs1 sfull s _ _ hd hl _ h
    cases hl
    rw [Race.mkdirLoop]
    refine OkOr.ok ?_
    rw [List.append_nil] at hd
    subst hd
    exact h
  | cons a l ih =>
    intro cs2 cs1 sfull s hn hlen hd hl hs h
    cases hl with
    | @cons _ n _ cs2 ha hl =>
    rw [Race.mkdirLoop]
    have hle : (rt ++ slashed cs1).length + n.length + 1 ≤ (rt ++ slashed (cs1 ++ n :: cs2)).length := by simp [slashed]; omega
    refine (append_okOr hs ha.cstr (hn n (by simp)).1).bind ?_
    rintro s1 ⟨h1, -, -⟩
    refine (append_okOr h1 sepZ_cstr (by simp)).bind ?_ (by simp only [List.length_append, List.length_singleton] at hle ⊢; omega)
    rintro s2 ⟨h2, -, -⟩
    have h2 : IsStr s2 (rt ++ slashed (cs1 ++ [n])) := by simpa [slashed] using h2
    rw [show Str.z s2 = .ok _ from h2.text, bind_ok]
    have hsub : ∀ m ∈ cs1 ++ [n], m ≠ [] ∧ 47 ∉ m ∧ m ≠ [46] ∧ m ≠ [46, 46] := by
      intro m hm
      apply hn
      simp only [List.mem_append, List.mem_cons, List.not_mem_nil, or_false] at hm ⊢
      tauto
    have hcomps : comps (rt ++ slashed (cs1 ++ [n])) = cs1 ++ [n] := by
      have := comps_slashed (cs := cs1 ++ [n]) fun m hm => ⟨(hsub m hm).1, (hsub m hm).2.1⟩
      rcases hrt with ⟨rfl, -⟩ | ⟨rfl, -⟩
      · simpa [comps, compsGo] using this
      · simpa using this
    have hb : ∀ w : World, w.cwd = c → base w (rt ++ slashed (cs1 ++ [n])) = b := by
      intro w hc
      unfold base
      rcases hrt with ⟨rfl, rfl⟩ | ⟨rfl, rfl⟩
      · simp
      · rw [hc, if_neg]
        cases hx : cs1 ++ [n] with
        | nil => simp at hx
        | cons m ms =>
          have hm := hsub m (by rw [hx]; simp)
          obtain ⟨c, r, rfl⟩ := List.exists_cons_of_ne_nil hm.1
          simp only [slashed, List.map_cons, List.flatten_cons, List.cons_append, List.head?_cons, Option.some.injEq, List.nil_append]
          rintro rfl
          simp at hm
    have hlen' : (rt ++ slashed (cs1 ++ [n])).length < maxPath := by
      simp [slashed] at hlen ⊢
      omega
    have hpre : b ++ (cs1 ++ [n]) <+: d := ⟨cs2, by simp [hd]⟩
    have h3 := race_mkdir_underway ho (fun m hm => (hsub m hm).2.2) hcomps hb (by simp [slashed]) hlen' hpre h
    exact (ih cs2 (cs1 ++ [n]) s2 _ (by simpa using hn) (by simpa using hlen) (by simp [hd]) hl h2 h3).le (by simp)

/-- **C137** `vt_path_mkdir_parents` may be called by several processes at the same time: if each directory on the way exists or may be made, and the others
do nothing on the way but make directories (as they do when they call the same function), then true is returned and all the directories exist at the
end, no matter who has made them. -/
theorem C137_mkdir_parents_together {E : Env} {o : Others} {s : Now} (hw : Wf s.world) {z : Mem} {t : Text} (hz : CStr z t)
    (hbase : kind s.world (base s.world t) = some .dir) {d : Fs.Path} (hP : Plain s.world t d) (hsep : 47 ∈ t) (he : ¬ [[], []] <:+ pieces t [47])
    (hlen : t.length + 1 < maxPath) (hk : ∀ q, q <+: d → kind s.world q = some .dir ∨ kind s.world q = none ∧ s.world.mayCreate q = true)
    (ho : ∀ i w, Helps d w (o i w)) {k : Nat} (hf : t.length < k) :
    OkOr E (t.length + 57) (Race.mkdirParents E k o z s) fun r => r.1 = true ∧ ∀ q, q <+: d → kind r.2.world q = some .dir := by
  have h0 : t ≠ [] := by rintro rfl; simp at hsep
  have hpb : base s.world t <+: d := by rw [hP.path]; exact List.prefix_append _ _
  have hu : Underway s.world.cwd d (base s.world t) s.world := ⟨rfl, hk, fun q hq => prefix_of_dir hw hbase hq⟩
  have hu1 : Underway s.world.cwd d (base s.world t) (next o s).world := hu.helped hpb (ho _ _)
  unfold Race.mkdirParents
  rw [hz.text, bind_ok]
  cases hex : Path.exists_ (next o s).world t with
  | true =>
    rw [race_exists hex]
    refine OkOr.ok ⟨rfl, ?_⟩
    have hb1 : base (next o s).world t = base s.world t := by unfold base; rw [hu1.cwd]
    have hlk : ∀ i x, kind (next o s).world (base s.world t ++ (comps t).take i) ≠ some (.link x) := by
      intro i x hc
      have hq : base s.world t ++ (comps t).take i <+: d := by rw [hP.path, List.prefix_append_right_inj]; exact List.take_prefix _ _
      rcases hu1.all _ hq with e | e
      · rw [e] at hc; cases hc
      · rw [e.1] at hc; cases hc
    rw [Path.exists_, stat, resolve_eq hP.ne (by omega), hb1] at hex
    by_cases hall : ∀ i, i < (comps t).length → kind (next o s).world (base s.world t ++ (comps t).take i) = some .dir
    · rw [walk_plain _ _ _ hP.names hall (fun x => by simpa using hlk (comps t).length x), ← hP.path] at hex
      have hd : kind (next o s).world d = some .dir := by
        rcases hu1.all d (List.prefix_refl _) with e | e
        · exact e
        · simp [e.1] at hex
      intro q hq
      rcases List.prefix_or_prefix_of_prefix hq hpb with h3 | ⟨c', rfl⟩
      · exact hu1.there q h3
      · have hq' := hq
        rw [hP.path, List.prefix_append_right_inj] at hq'
        rw [List.prefix_iff_eq_take] at hq'
        by_cases hi : c'.length < (comps t).length
        · rw [hq']; exact hall _ hi
        · rw [List.take_of_length_le (by omega)] at hq'
          rw [hq', ← hP.path]; exact hd
    · push Not at hall
      rw [walk_nolink _ _ _ hP.names hlk hall] at hex
      cases hex
  | false =>
    rw [race_exists hex]
    simp only [Bool.false_eq_true, if_false]
    refine (create_text_okOr hz h0).bind fun b hs => ?_
    have hl := hz.lim
    have hw1 : wadd b.len 1 = t.length + 1 := by rw [wadd_eq (by rw [hs.len]; omega), hs.len]
    rw [hw1]
    refine (createCapacity_okOr (by omega) (by omega)).bind ?_
    rintro sf ⟨hsf, -, -⟩
    obtain ⟨c, r, hcr⟩ := List.exists_cons_of_ne_nil h0
    have hg : getc z 0 = .ok c := getc_at (a := []) (b := r) hz.text hcr
    rw [hg, bind_ok]
    have hpre : OkOr E 2 (if c = 47 then Str.append E sf Path.sepZ else .ok sf) fun v => IsStr v (root t ++ slashed []) := by
      by_cases hc : c = 47
      · rw [if_pos hc]
        refine (append_okOr hsf sepZ_cstr (by simp)).mono ?_
        rintro v ⟨hv, -, -⟩
        simpa [root, hcr, hc, slashed] using hv
      · rw [if_neg hc]
        exact OkOr.ok (by simpa [root, hcr, hc, slashed] using hsf)
    refine hpre.bind fun sfull hfull => ?_
    refine (C29_split_partial hs sepZ_cstr (by simp) (occurs_singleton.2 hsep) he hf).bind ?_
    rintro dl ⟨l, rfl, hl'⟩
    rw [← comps_pieces] at hl'
    refine (race_mkdirLoop (b := base s.world t) (rt := root t) (c := s.world.cwd) (d := d) ho
      (by unfold root base; split
          · exact Or.inl ⟨rfl, rfl⟩
          · exact Or.inr ⟨rfl, rfl⟩) l (comps t) [] sfull (next o s)
      (fun m hm => ⟨(comps_names t m (by simpa using hm)).1, (comps_names t m (by simpa using hm)).2, hP.names m (by simpa using hm)⟩)
      (by have := root_slashed_length t; simp only [List.nil_append]; omega) (by rw [hP.path]; simp) hl' hfull (by simpa using hu1)).bind ?_
      (by have := root_slashed_length t; simp only [List.nil_append]; omega)
    intro s' h'
    exact OkOr.ok ⟨rfl, h'.there⟩

/-! ### Examples -/

/-- The directory `/s/d` with the file `x`, and elsewhere `/o` with the file `x`. -/
def exRace : World := { nodes := [([[115]], .dir), ([[115], [100]], .dir), ([[115], [100], [120]], .file [1]), ([[111]], .dir), ([[111], [120]], .file [2])] }

/-- Before call number 7 somebody puts a link to `/o` in the place of `/s/d`. -/
def exSwap : Others := fun i w =>
  if i = 7 then { w with nodes := [([[115]], .dir), ([[115], [100]], .link (chars' "/o")), ([[111]], .dir), ([[111], [120]], .file [2])] } else w

/-- **C137** (counterexample) There is no link below `/s` when the recursive removal of `/s` begins, and nobody else removes anything outside of `/s`.
Still the file `/o/x` outside is removed, since `/s/d` is replaced by a link after it has been listed. -/
theorem C137_rmdir_outside : kind exRace [[111], [120]] = some (.file [2]) ∧
    (Race.rmdirRecurse exE 4 exSwap (zstr (chars' "/s")) ⟨0, exRace⟩).mapOk (fun r => (r.1, r.2.world.nodes)) =
      .ok (false, [([[115]], .dir), ([[115], [100]], .link (chars' "/o")), ([[111]], .dir)]) := ⟨by decide, by decide +kernel⟩

/-- Before call number `k` somebody makes the directory `/n`. -/
def exMake (k : Nat) : Others := fun i w => if i = k then { w with nodes := w.nodes ++ [([[110]], .dir)] } else w

example : (Race.mkdir (exMake 1) (chars' "/n") ⟨0, exRace⟩).1 = false ∧ (Race.mkdir (exMake 0) (chars' "/n") ⟨0, exRace⟩).1 = true ∧
    (Race.mkdir (exMake 2) (chars' "/n") ⟨0, exRace⟩).1 = true := by decide +kernel

example : stat (moment (exMake 1) 1 ⟨0, exRace⟩).world (chars' "/n") = none ∧ stat (moment (exMake 1) 2 ⟨0, exRace⟩).world (chars' "/n") ≠ none := by decide +kernel

/-- The file that was one byte long when its size was asked for: it has grown, and it has become empty. -/
example : (Race.read exE quiet (zstr (chars' "/o/x")) [2, 3] ⟨0, exRace⟩).mapOk (fun r => r.1.map fun v => v.mem) = .ok (some [some 2, some 0]) ∧
    (Race.read exE quiet (zstr (chars' "/o/x")) [] ⟨0, exRace⟩).mapOk (fun r => r.1.map fun v => v.mem) = .ok none := by decide +kernel

/-- The buffer has been written over although false is returned: the file had two bytes when its size was asked for, and one when it was read. -/
example : (Race.readToBuffer exE quiet (zstr (chars' "/f")) [none, none, some 9] 2 [7] ⟨0, { nodes := [([[102]], .file [7, 8])] }⟩).mapOk (·.1) =
    .ok (false, [some 7, none, some 9]) := by decide +kernel

/-- A file that comes into `/s/d` after `/s` has been listed is listed. -/
example : (Race.dirListRecurse exE (fun i w => if i = 4 then { w with nodes := w.nodes ++ [([[115], [100], [121]], .file [])] } else w) false 4 [] (zstr (chars' "/s"))
      ⟨0, exRace⟩).mapOk (fun r => (r.1.getD []).map fun v => v.mem.take v.len) =
    .ok [(chars' "/s/d/x").map some, (chars' "/s/d/y").map some, (chars' "/s/d").map some] := by decide +kernel

/-- Somebody else makes `/n` just before this process tries to. -/
example : (Race.mkdirParents exE 9 (exMake 2) (zstr (chars' "/n/m")) ⟨0, exRace⟩).mapOk (fun r => (r.1, r.2.world.nodes.drop 5)) =
    .ok (true, [([[110]], .dir), ([[110], [109]], .dir)]) := by decide +kernel

/-- What `exMake` does is allowed by `C137_mkdir_parents_together`. -/
example (i : Nat) (w : World) : Helps [[110], [109]] w (exMake 2 i w) := by
  unfold exMake
  split
  · refine ⟨rfl, fun _ _ => rfl, fun q _ => ?_⟩
    by_cases hq : q = []
    · subst hq; exact .inl (by simp [kind])
    · rw [kind_ne hq, kind_ne hq, List.find?_append]
      cases w.nodes.find? (fun x => decide (x.1 = q)) with
      | some x => exact .inl rfl
      | none =>
        by_cases hp : [[110]] = q
        · exact .inr (by simp [hp])
        · exact .inl (by simp [hp])
  · exact ⟨rfl, fun _ _ => rfl, fun _ _ => .inl rfl⟩

example : Plain exRace (chars' "/n/m") [[110], [109]] ∧ ¬ [[], []] <:+ pieces (chars' "/n/m") [47] := ⟨⟨by decide +kernel, by decide +kernel, by decide +kernel⟩, by decide +kernel⟩

end Vita
