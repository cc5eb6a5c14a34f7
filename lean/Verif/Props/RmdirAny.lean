import Verif.Props.ListExact
import Verif.Props.PathNames
import Verif.Props.FileTreeMore
import Mathlib.Data.List.TakeWhile
/-!
# Recursive removal, exactly, in any file system (C63)
-/

namespace Vita
open Out Spec Fs
seal wadd wsub wmul

namespace Spec

/-- The entry at `p`, named by `v`, is one that the recursive removal can remove: it is there, and so is what it leads to if it is a link; it does not lead to a directory unless
it is one itself, which must then be empty; and it may be removed. -/
structure Removable (w : World) (v : Text) (p : Fs.Path) : Prop where
  names : resolve w false v = some p
  here : kind w p ≠ none
  there : stat w v ≠ none
  noLink : stat w v = some .dir → kind w p = some .dir
  empty : kind w p = some .dir → ∀ n, kind w (p ++ [n]) = none
  may : w.mayRemove p = true

/-- The entries named by the texts are removed one after the other, up to the first that cannot be removed; `b` tells whether all were. -/
inductive TakenDown : World → List Text → World → (b : Bool) → Prop
  | done {w : World} : TakenDown w [] w true
  | step {w w' : World} {v : Text} {p : Fs.Path} {L : List Text} {b : Bool} : Removable w v p → TakenDown (without w p) L w' b → TakenDown w (v :: L) w' b
  | stop {w : World} {v : Text} {L : List Text} : (∀ p, ¬ Removable w v p) → TakenDown w (v :: L) w false

/-- The directory at `p`, named by `t`, can be removed: it is no link, not the root, empty, is not named by `.`, and may be removed. -/
structure Droppable (w : World) (t : Text) (p : Fs.Path) : Prop where
  names : resolve w false t = some p
  dir : kind w p = some .dir
  notRoot : p ≠ []
  empty : ∀ n, kind w (p ++ [n]) = none
  notDot : (comps t).getLast? ≠ some [46]
  may : w.mayRemove p = true

/-- The directory named by `t` is removed if that is possible. -/
def Dropped (w : World) (t : Text) (w' : World) (b : Bool) : Prop :=
  (∃ p, Droppable w t p ∧ w' = without w p ∧ b = true) ∨ ((∀ p, ¬ Droppable w t p) ∧ w' = w ∧ b = false)

end Spec

/-! ### One removal -/

theorem names_eq_nil {w : World} {p : Fs.Path} : names w p = [] ↔ ∀ n, kind w (p ++ [n]) = none := by
  refine ⟨fun h n => ?_, names_nil⟩
  by_contra hc
  have := mem_names.2 hc
  rw [h] at this
  cases this

theorem rmdir_dropped (w : World) (t : Text) : Dropped w t (Path.rmdir w t).1 (Path.rmdir w t).2 := by
  by_cases h : ∃ p, Droppable w t p
  · obtain ⟨p, h⟩ := h
    have hs := stat_dir (resolve_follow h.names h.dir) h.dir
    have hf : Fs.rmdir w t = some (without w p) := by
      simp [Fs.rmdir, h.names, h.dir, h.notRoot, names_eq_nil.2 h.empty, h.notDot, h.may]
    rw [Path.rmdir, if_neg (by simp [Path.exists_, hs]), hf]
    exact .inl ⟨p, h, rfl, rfl⟩
  · have h : ∀ p, ¬ Droppable w t p := fun p hp => h ⟨p, hp⟩
    have hf : Fs.rmdir w t = none := by
      unfold Fs.rmdir
      cases hr : resolve w false t with
      | none => rfl
      | some p =>
        simp only [Option.bind_eq_bind, Option.bind_some]
        rw [if_neg]
        rintro ⟨h1, h2, h3, h4, h5⟩
        exact h p ⟨hr, h1, h2, names_eq_nil.1 h3, h4, h5⟩
    refine .inr ⟨h, ?_⟩
    rw [Path.rmdir, hf]
    split <;> exact ⟨rfl, rfl⟩

/-- A text as the listing has them: a directory and a name. -/
def EntryText (v : Text) : Prop := ∃ u n, v = u ++ 47 :: n ∧ u ≠ [] ∧ GoodName n

theorem EntryText.facts {w : World} {v : Text} (h : EntryText v) {p : Fs.Path} (hp : resolve w false v = some p) :
    p ≠ [] ∧ v.getLast? ≠ some 47 ∧ (comps v).getLast? ≠ some [46] := by
  obtain ⟨u, n, rfl, hu, hn⟩ := h
  obtain ⟨d, -, -, rfl⟩ := (resolve_child hu (.of_good hn) (resolve_some hp).2.1).1 hp
  have e : u ++ 47 :: n = render u [n] := by simp [render]
  have hg : ∀ m ∈ [n], GoodName m := by simpa using hn
  refine ⟨by simp, ?_, ?_⟩
  · rw [e]; exact render_last (by simp) hg
  · rw [e, comps_render hg, List.getLast?_append_of_ne_nil _ (by simp)]
    simpa using hn.dot

theorem removal_exact (w : World) {v : Text} (hv : EntryText v) :
    (∃ p, Removable w v p ∧ (if Path.isDir w v then Path.rmdir w v else Path.remove w v) = (without w p, true)) ∨
    ((∀ p, ¬ Removable w v p) ∧ (if Path.isDir w v then Path.rmdir w v else Path.remove w v) = (w, false)) := by
  by_cases hd : Path.isDir w v = true
  · have hst : stat w v = some .dir := by simpa [Path.isDir] using hd
    rw [if_pos hd]
    rcases rmdir_dropped w v with ⟨p, h, e1, e2⟩ | ⟨h, e1, e2⟩
    · exact .inl ⟨p, ⟨h.names, by rw [h.dir]; simp, by rw [hst]; simp, fun _ => h.dir, fun _ => h.empty, h.may⟩, Prod.ext e1 e2⟩
    · refine .inr ⟨fun p hp => ?_, Prod.ext e1 e2⟩
      obtain ⟨f1, -, f3⟩ := hv.facts hp.names
      have := hp.noLink hst
      exact h p ⟨hp.names, this, f1, hp.empty this, f3, hp.may⟩
  · have hst : stat w v ≠ some .dir := by simpa [Path.isDir] using hd
    rw [if_neg hd, Path.remove]
    by_cases hex : stat w v = none
    · rw [if_pos (by simp [Path.exists_, hex])]
      exact .inr ⟨fun p hp => hp.there hex, rfl⟩
    · rw [if_neg (by simp [Path.exists_, Option.isSome_iff_ne_none.2 hex])]
      unfold Fs.remove
      cases hr : resolve w false v with
      | none => exact .inr ⟨fun p hp => (by have := hp.names; rw [hr] at this; cases this), rfl⟩
      | some p =>
        obtain ⟨-, f2, -⟩ := hv.facts hr
        simp only [Option.bind_eq_bind, Option.bind_some]
        have uniq : ∀ q, Removable w v q → q = p := fun q hq => (by have := hq.names; rw [hr] at this; injection this with this; exact this.symm)
        cases hk : kind w p with
        | none => exact .inr ⟨fun q hq => (by rw [uniq q hq] at hq; exact hq.here hk), rfl⟩
        | some k =>
          have hkd : k ≠ .dir := by
            rintro rfl
            exact hst (stat_dir (resolve_follow hr hk) hk)
          simp only [Option.bind_some, if_neg hkd]
          by_cases hm : w.mayRemove p = true
          · rw [if_pos ⟨f2, hm⟩]
            refine .inl ⟨p, ⟨hr, by rw [hk]; simp, hex, fun h => absurd h hst, fun h => ?_, hm⟩, rfl⟩
            rw [hk] at h; injection h with h; exact absurd h hkd
          · rw [if_neg (fun h => hm h.2)]
            exact .inr ⟨fun q hq => (by rw [uniq q hq] at hq; exact hm hq.may), rfl⟩

/-! ### The loop -/

theorem rmdirLoop_down {t : Text} : ∀ (l : List Arr) (L : List Text), List.Forall₂ IsStr l L → (∀ v ∈ L, EntryText v) →
    ∀ w, ∃ r, Path.rmdirLoop t l w = .ok r ∧ ∃ w1, (TakenDown w L w1 false ∧ r = (w1, false)) ∨
      (TakenDown w L w1 true ∧ r.2 = true ∧ ∃ b, Dropped w1 t r.1 b)
  | [], _, .nil, _, w => ⟨_, rfl, w, .inr ⟨.done, rfl, _, rmdir_dropped w t⟩⟩
  | a :: l, v :: L, .cons ha hl, hL, w => by
    rw [Path.rmdirLoop, show Str.z a = .ok v from ha.text, bind_ok]
    rcases removal_exact w (hL v (by simp)) with ⟨p, hp, e⟩ | ⟨hp, e⟩
    · simp only [e, if_true]
      obtain ⟨r, e1, w1, h⟩ := rmdirLoop_down l L hl (fun v hv => hL v (by simp [hv])) (without w p)
      exact ⟨r, e1, w1, h.imp (fun h => ⟨.step hp h.1, h.2⟩) fun h => ⟨.step hp h.1, h.2⟩⟩
    · simp only [e, Bool.false_eq_true, if_false]
      exact ⟨_, rfl, w, .inl ⟨.stop hp, rfl⟩⟩

theorem listed_split {w : World} {ign : Bool} {t v : Text} (h : Listed w ign t v) : ∃ u n, v = u ++ 47 :: n ∧ n ∈ reached w ign u := by
  induction h with
  | entry h => exact ⟨_, _, rfl, h⟩
  | inside _ _ ih => exact ih

theorem reached_dir {w : World} {ign : Bool} {u : Text} {n : Name} (h : n ∈ reached w ign u) :
    ∃ d, resolve w true u = some d ∧ kind w d = some .dir ∧ readdir w u ≠ none ∧ kind w (d ++ [n]) ≠ none := by
  unfold reached at h
  cases hr : readdir w u with
  | none => rw [hr] at h; simp at h
  | some ns =>
    obtain ⟨d, h1, h2, rfl⟩ := readdir_some hr
    refine ⟨d, h1, h2, by simp, ?_⟩
    rw [hr, Option.getD_some] at h
    have := List.mem_filter.1 ((List.takeWhile_sublist _).subset h)
    rw [List.mem_cons, List.mem_cons] at this
    rcases this with ⟨rfl | rfl | h, h'⟩
    · simp [shown] at h'
    · simp [shown] at h'
    · exact mem_names.1 h

theorem listed_entryText {w : World} (hw : Wf w) {ign : Bool} {t v : Text} (h : Listed w ign t v) : EntryText v := by
  obtain ⟨u, n, rfl, hn⟩ := listed_split h
  obtain ⟨d, h1, -, -, h3⟩ := reached_dir hn
  exact ⟨u, n, rfl, (resolve_some h1).1, (parent_dir hw h3).2⟩

/-- **C63**, exactly, in any file system.  If what the text leads to does not exist, nothing is done.  If it is no directory that can be opened, or nothing in it is listed, it is
removed if possible, which is also the result.  Otherwise the entries of the listing (`C62_exact`) are removed one after the other up to the first
that cannot be removed; then false is returned.  If all were removed, true is returned, and the directory is removed if that is possible. -/
theorem C63_exact {E : Env} {w : World} (hw : Wf w) {z : Mem} {t : Text} (hz : CStr z t) :
    OkOr E (maxPath + 312) (Path.rmdirRecurse E maxPath w z) fun r =>
      (stat w t = none ∧ r = (w, false)) ∨
      (stat w t ≠ none ∧ reached w false t = [] ∧ Dropped w t r.1 r.2) ∨
      (reached w false t ≠ [] ∧ ∃ L w1, Listing w false t (reached w false t) L ∧ ((TakenDown w L w1 false ∧ r = (w1, false)) ∨
        (TakenDown w L w1 true ∧ r.2 = true ∧ ∃ b, Dropped w1 t r.1 b))) := by
  unfold Path.rmdirRecurse
  rw [hz.text, bind_ok]
  by_cases hs : stat w t = none
  · rw [if_pos (by simp [Path.exists_, hs])]
    exact OkOr.ok (.inl ⟨hs, rfl⟩)
  · rw [if_neg (by simp [Path.exists_, Option.isSome_iff_ne_none.2 hs])]
    refine (C62_exact hw hz false []).bind ?_ (Nat.le_refl _)
    rintro o (⟨rfl, hn⟩ | ⟨-, l, L, rfl, hl, hL, hm, -, -⟩)
    · exact OkOr.ok (.inr (.inl ⟨hs, by simp [reached, hn], rmdir_dropped w t⟩))
    · cases l with
      | nil =>
        cases hl
        have : reached w false t = [] := by
          generalize hns : reached w false t = ns at hL
          cases ns with
          | nil => rfl
          | cons n ns => generalize hL' : ([] : List Text) = L' at hL; cases hL; simp at hL'
        exact OkOr.ok (.inr (.inl ⟨hs, this, rmdir_dropped w t⟩))
      | cons a l =>
        have hne : reached w false t ≠ [] := by
          intro h0
          rw [h0] at hL
          cases hL
          cases hl
        obtain ⟨r, e, w1, h⟩ := rmdirLoop_down (t := t) (a :: l) L hl (fun v hv => listed_entryText hw ((hm v).1 hv)) w
        simp only [List.nil_append]
        rw [e]
        exact OkOr.ok (.inr (.inr ⟨hne, L, w1, hL, h⟩))

/-! ### What follows for links and for directories that cannot be opened -/

theorem walk1_less_follow {w w' : World} (h : Less w w') {r r' : Fs.Path → List Name → Option Fs.Path} {p : Fs.Path} (hk : kind w' p ≠ none)
    (hr : ∀ cur cs, r' cur cs = some p → r cur cs = some p) :
    ∀ (cs : List Name) (cur : Fs.Path), walk1 w' true r' cur cs = some p → walk1 w true r cur cs = some p := by
  intro cs
  induction cs with
  | nil => intro cur h; exact h
  | cons c cs ih =>
    intro cur hp
    rw [walk1] at hp ⊢
    by_cases h1 : kind w' cur ≠ some .dir
    · rw [if_pos h1] at hp; cases hp
    · rw [if_neg h1] at hp
      have h1' : ¬ kind w cur ≠ some .dir := fun hc => hc (h.some (not_not.1 h1))
      rw [if_neg h1']
      by_cases h2 : c = [46]
      · rw [if_pos h2] at hp ⊢; exact ih _ hp
      · rw [if_neg h2] at hp ⊢
        by_cases h3 : c = [46, 46]
        · rw [if_pos h3] at hp ⊢; exact ih _ hp
        · rw [if_neg h3] at hp ⊢
          cases hx : kind w' (cur ++ [c]) with
          | none =>
            rw [hx] at hp
            simp only at hp
            by_cases hcs : cs = []
            · rw [if_pos hcs] at hp
              injection hp with hp
              rw [hp] at hx
              exact absurd hx hk
            · rw [if_neg hcs] at hp; cases hp
          | some k =>
            rw [hx] at hp
            rw [h.some hx]
            cases k with
            | link x =>
              simp only [Bool.true_eq_false, and_false, if_false] at hp ⊢
              exact hr _ _ hp
            | dir => exact ih _ hp
            | file b => exact ih _ hp

theorem walk_less_follow {w w' : World} (h : Less w w') {p : Fs.Path} (hk : kind w' p ≠ none) : ∀ (l : Nat) (cur : Fs.Path) (cs : List Name),
    walk w' true l cur cs = some p → walk w true l cur cs = some p
  | 0, cur, cs, hp => walk1_less_follow h hk (by simp) cs cur hp
  | l + 1, cur, cs, hp => walk1_less_follow h hk (walk_less_follow h hk l) cs cur hp

theorem resolve_less_follow {w w' : World} (h : Less w w') {t : Text} {p : Fs.Path} (hp : resolve w' true t = some p) (hk : kind w' p ≠ none) :
    resolve w true t = some p := by
  obtain ⟨h0, h1, h2⟩ := resolve_some hp
  rw [resolve_eq h0 h1]
  have : base w t = base w' t := by simp [base, h.cwd]
  rw [this]
  exact walk_less_follow h hk 40 _ _ h2

theorem stat_less {w w' : World} (h : Less w w') {t : Text} {k : Kind} (hs : stat w' t = some k) : stat w t = some k := by
  unfold stat at hs ⊢
  cases hr : resolve w' true t with
  | none => rw [hr] at hs; cases hs
  | some p =>
    rw [hr] at hs
    simp only [Option.bind_eq_bind, Option.bind_some] at hs
    cases hk : kind w' p with
    | none => rw [hk] at hs; cases hs
    | some k' =>
      rw [hk] at hs
      rw [resolve_less_follow h hr (by rw [hk]; simp)]
      simp only [Option.bind_eq_bind, Option.bind_some, h.some hk]
      exact hs

theorem less_without {w w' : World} (h : Less w w') {p : Fs.Path} (hp : p ≠ []) : Less w (without w' p) := by
  refine ⟨h.cwd, h.may, fun q => ?_⟩
  rw [kind_without hp]
  split
  · exact .inl rfl
  · exact h.sub q

/-- What has happened when the entries of `L` are removed in turn, the first removals of a longer run: what is gone is an entry of `L`, and if all were removed, all are gone. -/
theorem takenDown_gone {w w' w1 : World} {L : List Text} {b : Bool} (h : TakenDown w' L w1 b) (hv : ∀ v ∈ L, EntryText v) (hl : Less w w') :
    Less w w1 ∧ (∀ q, kind w' q = none → kind w1 q = none) ∧ (∀ q, kind w1 q ≠ kind w' q → ∃ v ∈ L, resolve w false v = some q) ∧
      (b = true → ∀ v ∈ L, ∀ q, resolve w false v = some q → kind w1 q = none) := by
  induction h with
  | done => exact ⟨hl, fun _ h => h, fun q hq => absurd rfl hq, by simp⟩
  | @step w' w1 v p L b hp _ ih =>
    have h0 := ((hv v (by simp)).facts hp.names).1
    obtain ⟨i1, i2, i3, i4⟩ := ih (fun v h => hv v (by simp [h])) (less_without hl h0)
    have hgone : kind w1 p = none := i2 p (by rw [kind_without h0, if_pos rfl])
    refine ⟨i1, fun q hq => i2 q ?_, fun q hq => ?_, fun hb u hu q hq => ?_⟩
    · rw [kind_without h0]; split <;> [rfl; exact hq]
    · by_cases hqp : q = p
      · exact ⟨v, by simp, by rw [hqp]; exact resolve_less hl hp.names⟩
      · obtain ⟨u, hu, e⟩ := i3 q (by rw [kind_without h0, if_neg hqp]; exact hq)
        exact ⟨u, by simp [hu], e⟩
    · rcases List.mem_cons.1 hu with rfl | hu
      · rw [resolve_less hl hp.names] at hq
        injection hq with hq
        rw [← hq]; exact hgone
      · exact i4 hb u hu q hq
  | stop _ => exact ⟨hl, fun _ h => h, fun q hq => absurd rfl hq, by simp⟩

theorem takenDown_split {A : List Text} {v : Text} {B : List Text} : ∀ {w w1 : World}, TakenDown w (A ++ v :: B) w1 true →
    ∃ w2 p, TakenDown w A w2 true ∧ Removable w2 v p := by
  induction A with
  | nil =>
    intro w w1 h
    cases h with
    | step hp h => exact ⟨w, _, .done, hp⟩
  | cons a A ih =>
    intro w w1 h
    cases h with
    | step hp h =>
      obtain ⟨w2, p, h1, h2⟩ := ih h
      exact ⟨w2, p, .step hp h1, h2⟩

theorem less_refl (w : World) : Less w w := ⟨rfl, rfl, fun _ => .inr rfl⟩

/-- **C63** (counterexamples, in general) False is returned whenever
- an entry listed is a link that leads nowhere,
- an entry listed is a link to a directory,
- an entry is listed under two texts (through a link),
- an entry listed is a link to an entry that is listed before it,
- an entry listed must not be removed. -/
theorem C63_false_because {E : Env} {w : World} (hw : Wf w) {z : Mem} {t : Text} (hz : CStr z t) {v : Text} (hv : Listed w false t v)
    (h : stat w v = none ∨
      (∃ p x, stat w v = some .dir ∧ resolve w false v = some p ∧ kind w p = some (.link x)) ∨
      (∃ u p, u ≠ v ∧ Listed w false t u ∧ resolve w false u = some p ∧ resolve w false v = some p) ∨
      (∃ A u B p, Listing w false t (reached w false t) (A ++ v :: B) ∧ u ∈ A ∧ resolve w false u = some p ∧ resolve w true v = some p) ∨
      (∃ p, resolve w false v = some p ∧ w.mayRemove p = false)) :
    OkOr E (maxPath + 312) (Path.rmdirRecurse E maxPath w z) fun r => r.2 = false := by
  refine (C63_exact hw hz).mono ?_ (Nat.le_refl _)
  rintro r (⟨-, rfl⟩ | ⟨-, h0, -⟩ | ⟨-, L, w1, hL, ⟨-, rfl⟩ | ⟨hT, -, -⟩⟩)
  · rfl
  · exfalso
    cases hv with
    | entry hn => rw [h0] at hn; cases hn
    | inside hn _ => rw [h0] at hn; cases hn
  · rfl
  · exfalso
    have hE : ∀ v ∈ L, EntryText v := fun v hv => listed_entryText hw ((listing_listed hL v).1 hv)
    have at_ : ∀ A v B, L = A ++ v :: B → ∃ w2 p, Less w w2 ∧ Removable w2 v p ∧ ∀ u ∈ A, ∀ q, resolve w false u = some q → kind w2 q = none := by
      rintro A v B rfl
      obtain ⟨w2, p, h1, h2⟩ := takenDown_split hT
      obtain ⟨i1, -, -, i4⟩ := takenDown_gone h1 (fun v hv => hE v (by simp [hv])) (less_refl w)
      exact ⟨w2, p, i1, h2, i4 rfl⟩
    obtain ⟨A, B, rfl⟩ := List.append_of_mem ((listing_listed hL v).2 hv)
    obtain ⟨w2, q, i1, i2, i4⟩ := at_ A v B rfl
    have hq := resolve_less i1 i2.names
    obtain ⟨k, hk⟩ := Option.ne_none_iff_exists'.1 i2.there
    have hs := stat_less i1 hk
    rcases h with h | ⟨p, x, h1, h2, h3⟩ | ⟨u, p, hne, hu, h1, h2⟩ | ⟨A', u, B', p, h0, hu, h1, h2⟩ | ⟨p, h1, h2⟩
    · rw [h] at hs; cases hs
    · rw [h1] at hs
      injection hs with hs
      subst hs
      have := i1.some (i2.noLink hk)
      rw [hq] at h2
      injection h2 with h2
      rw [h2, h3] at this
      cases this
    · rw [hq] at h2
      injection h2 with h2
      subst h2
      rcases List.mem_append.1 ((listing_listed hL u).2 hu) with hA | hB
      · exact i2.here (i4 u hA q h1)
      · rcases List.mem_cons.1 hB with rfl | hB
        · exact hne rfl
        · obtain ⟨B1, B2, rfl⟩ := List.append_of_mem hB
          obtain ⟨w3, q', j1, j2, j4⟩ := at_ (A ++ v :: B1) u B2 (by simp)
          have e := resolve_less j1 j2.names
          rw [h1] at e
          injection e with e
          subst e
          exact j2.here (j4 v (by simp) q hq)
    · obtain ⟨w2, q, i1, i2, i4⟩ := at_ A' v B' (listing_unique hL h0)
      have hn := i4 u hu p h1
      obtain ⟨k, hk⟩ := Option.ne_none_iff_exists'.1 i2.there
      unfold stat at hk
      cases hr : resolve w2 true v with
      | none => rw [hr] at hk; cases hk
      | some p' =>
        rw [hr] at hk
        simp only [Option.bind_eq_bind, Option.bind_some] at hk
        cases hkp : kind w2 p' with
        | none => rw [hkp] at hk; cases hk
        | some k' =>
          have := resolve_less_follow i1 hr (by rw [hkp]; simp)
          rw [h2] at this
          injection this with this
          rw [← this, hn] at hkp
          cases hkp
    · rw [hq] at h1
      injection h1 with h1
      subst h1
      have := i2.may
      rw [i1.may, h2] at this
      cases this

/-- **C63** (counterexample, in general) A directory that cannot be opened stays, empty or not, and so do the directories it is in, whatever is returned; unless it is the one
named. -/
theorem C63_unreadable_stays {E : Env} {w : World} (hw : Wf w) {z : Mem} {t : Text} (hz : CStr z t) {q : Fs.Path} (hq : kind w q = some .dir) (hu : w.readable q = false)
    (ht : resolve w true t ≠ some q) :
    OkOr E (maxPath + 312) (Path.rmdirRecurse E maxPath w z) fun r => kind r.1 q = some .dir ∧ ∀ d rel, q = d ++ rel → kind r.1 d = some .dir := by
  have main : OkOr E (maxPath + 312) (Path.rmdirRecurse E maxPath w z) fun r => kind r.1 q = some .dir := by
    have drop : ∀ {w1 w2 : World} {b : Bool}, Less w w1 → kind w1 q = some .dir → Dropped w1 t w2 b → kind w2 q = some .dir := by
      rintro w1 w2 b hl hk (⟨p, h, rfl, -⟩ | ⟨-, rfl, -⟩)
      · rw [kind_without h.notRoot, if_neg]
        · exact hk
        · rintro rfl
          exact ht (resolve_follow (resolve_less hl h.names) hq)
      · exact hk
    refine (C63_exact hw hz).mono ?_ (Nat.le_refl _)
    have down : ∀ {L w1 b}, Listing w false t (reached w false t) L → TakenDown w L w1 b → Less w w1 ∧ kind w1 q = some .dir := by
      intro L w1 b hL hT
      obtain ⟨i1, -, i3, -⟩ := takenDown_gone hT (fun v hv => listed_entryText hw ((listing_listed hL v).1 hv)) (less_refl w)
      refine ⟨i1, ?_⟩
      by_contra hc
      obtain ⟨v, hv, e⟩ := i3 q (by rw [hq]; exact hc)
      obtain ⟨u, n, rfl, hn⟩ := listed_split ((listing_listed hL v).1 hv)
      have ho := List.mem_takeWhile_imp hn
      have hf := resolve_follow e hq
      simp [opens, stat_dir hf hq, readdir, hf, hq, hu] at ho
    rintro r (⟨-, rfl⟩ | ⟨-, -, h⟩ | ⟨-, L, w1, hL, ⟨h, rfl⟩ | ⟨h, -, b, h'⟩⟩)
    · exact hq
    · exact drop (less_refl w) hq h
    · exact (down hL h).2
    · exact drop (down hL h).1 (down hL h).2 h'
  refine (OkOr.and main (C63_any_file_system hw hz)).mono ?_ (Nat.le_refl _)
  rintro r ⟨h1, h2, -⟩
  refine ⟨h1, ?_⟩
  rintro d rel rfl
  by_cases h0 : rel = []
  · subst h0; simpa using h1
  · exact (prefix_dir h2 rel h0 (by rw [h1]; simp)).1

-- With `/s` of `exShut`: `/s/d` cannot be opened; `/s/a` is removed, true is returned, and `/s`, `/s/d` and the file `/s/f` are still there.
example : kind exShut [[115], [100]] = some .dir ∧ exShut.readable [[115], [100]] = false ∧ resolve exShut true (chars' "/s") ≠ some [[115], [100]] ∧
    (Path.rmdirRecurse exE 5 exShut (zstr (chars' "/s"))).mapOk (fun r => (r.1.nodes, r.2)) =
      .ok ([([[115]], .dir), ([[115], [100]], .dir), ([[115], [102]], .file [1])], true) := by decide +kernel

/-- Example: `/s` has the file `f` and the link `l` to it. -/
def exLater : World := { nodes := [([[115]], .dir), ([[115], [102]], .file [1]), ([[115], [108]], .link [102])] }

-- The file is removed, and then the link leads nowhere and is not removed.  The fourth reason of `C63_false_because`.
example : reached exLater false (chars' "/s") = [[102], [108]] ∧ resolve exLater false (chars' "/s/f") = some [[115], [102]] ∧
    resolve exLater true (chars' "/s/l") = some [[115], [102]] ∧
    (Path.rmdirRecurse exE 5 exLater (zstr (chars' "/s"))).mapOk (fun r => (r.1.nodes, r.2)) = .ok ([([[115]], .dir), ([[115], [108]], .link [102])], false) := by
  decide +kernel

example : Listed exLater false (chars' "/s") (chars' "/s/l") := .entry (t := chars' "/s") (n := [108]) (by decide +kernel)

end Vita
