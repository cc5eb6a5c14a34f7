import Verif.Props.PathAny
/-!
# Exactly what a recursive listing has (C62)

For every file system: directories that cannot be opened, links, cycles of links and paths that are too long included.
-/

namespace Vita
open Out Spec Fs
seal wadd wsub wmul

namespace Spec

/-- An entry that does not end the listing: it is no directory, or one that can be opened. -/
def opens (w : World) (t : Text) (n : Name) : Bool := !decide (stat w (t ++ 47 :: n) = some .dir) || (readdir w (t ++ 47 :: n)).isSome

/-- The entry is to be listed. -/
def shown (ign : Bool) (n : Name) : Bool := !(ign && decide (n.head? = some 46)) && decide (n ≠ [46]) && decide (n ≠ [46, 46])

/-- The names of the directory `t` in its order, from the first one up to and not including the first that is a directory that cannot be opened. -/
def reached (w : World) (ign : Bool) (t : Text) : List Name := (((readdir w t).getD []).filter (shown ign)).takeWhile (opens w t)

/-- `L` is the listing of the names `ns` of the directory `t`: for each name the listing of what is below it, and then the name. -/
inductive Listing (w : World) (ign : Bool) : Text → List Name → List Text → Prop
  | nil {t : Text} : Listing w ign t [] []
  | cons {t : Text} {n : Name} {ns : List Name} {S L : List Text} : Listing w ign (t ++ 47 :: n) (reached w ign (t ++ 47 :: n)) S → Listing w ign t ns L →
      Listing w ign t (n :: ns) (S ++ (t ++ 47 :: n) :: L)

/-- The text `v` is reached from the directory `t`. -/
inductive Listed (w : World) (ign : Bool) : Text → Text → Prop
  | entry {t : Text} {n : Name} : n ∈ reached w ign t → Listed w ign t (t ++ 47 :: n)
  | inside {t v : Text} {n : Name} : n ∈ reached w ign t → Listed w ign (t ++ 47 :: n) v → Listed w ign t v

end Spec

/-! ### The listing is determined, and what is in it -/

theorem listing_unique {w : World} {ign : Bool} {t : Text} {ns : List Name} {L L' : List Text} (h : Listing w ign t ns L) (h' : Listing w ign t ns L') : L = L' := by
  induction h generalizing L' with
  | nil => cases h'; rfl
  | cons _ _ ih1 ih2 =>
    cases h' with
    | cons g1 g2 => rw [ih1 g1, ih2 g2]

theorem listing_mem {w : World} {ign : Bool} {t : Text} {ns : List Name} {L : List Text} (h : Listing w ign t ns L) (v : Text) :
    v ∈ L ↔ ∃ n ∈ ns, v = t ++ 47 :: n ∨ Listed w ign (t ++ 47 :: n) v := by
  induction h with
  | nil => simp
  | @cons t n ns S L h1 h2 ih1 ih2 =>
    have key : v ∈ S ↔ Listed w ign (t ++ 47 :: n) v := by
      rw [ih1]
      constructor
      · rintro ⟨m, hm, rfl | h⟩
        · exact .entry hm
        · exact .inside hm h
      · intro h
        cases h with
        | entry hm => exact ⟨_, hm, .inl rfl⟩
        | inside hm h => exact ⟨_, hm, .inr h⟩
    rw [List.mem_append, List.mem_cons, ih2, key]
    constructor
    · rintro (h | rfl | ⟨m, hm, h⟩)
      · exact ⟨n, by simp, .inr h⟩
      · exact ⟨n, by simp, .inl rfl⟩
      · exact ⟨m, by simp [hm], h⟩
    · rintro ⟨m, hm, h⟩
      rcases List.mem_cons.1 hm with rfl | hm
      · rcases h with h | h
        · exact .inr (.inl h)
        · exact .inl h
      · exact .inr (.inr ⟨m, hm, h⟩)

theorem listing_listed {w : World} {ign : Bool} {t : Text} {L : List Text} (h : Listing w ign t (reached w ign t) L) (v : Text) : v ∈ L ↔ Listed w ign t v := by
  rw [listing_mem h]
  constructor
  · rintro ⟨m, hm, rfl | h⟩
    · exact .entry hm
    · exact .inside hm h
  · intro h
    cases h with
    | entry hm => exact ⟨_, hm, .inl rfl⟩
    | inside hm h => exact ⟨_, hm, .inr h⟩

theorem listed_under {w : World} {ign : Bool} {t v : Text} (h : Listed w ign t v) : Under t v := by
  induction h with
  | @entry t n _ => exact ⟨n, rfl⟩
  | @inside t v n _ _ ih =>
    obtain ⟨r, rfl⟩ := ih
    exact ⟨n ++ 47 :: r, by simp⟩

theorem shown_names {ign : Bool} {ns : List Name} (h : ∀ n ∈ ns, GoodName n) :
    ([46] :: [46, 46] :: ns).filter (shown ign) = ns.filter fun n => !(ign && decide (n.head? = some 46)) := by
  rw [List.filter_cons, if_neg (by simp [shown]), List.filter_cons, if_neg (by simp [shown])]
  apply List.filter_congr
  intro n hn
  simp [shown, (h n hn).dot, (h n hn).dotdot]

theorem names_good {w : World} (hw : Wf w) {d : Fs.Path} : ∀ n ∈ names w d, GoodName n := fun n hn => (parent_dir hw (mem_names.1 hn)).2

theorem reached_props {w : World} (hw : Wf w) (ign : Bool) (t : Text) : (reached w ign t).Nodup ∧ ∀ n ∈ reached w ign t, 47 ∉ n := by
  unfold reached
  cases hr : readdir w t with
  | none => simp
  | some ns =>
    obtain ⟨d, -, -, rfl⟩ := readdir_some hr
    rw [Option.getD_some, shown_names (names_good hw)]
    constructor
    · exact ((names_nodup hw d).filter _).sublist (List.takeWhile_sublist _)
    · intro n hn
      exact (names_good hw n (List.mem_of_mem_filter ((List.takeWhile_sublist _).subset hn))).sep

theorem listing_order {w : World} (hw : Wf w) {ign : Bool} {t : Text} {ns : List Name} {L : List Text} (h : Listing w ign t ns L) :
    ns.Nodup → (∀ n ∈ ns, 47 ∉ n) → L.Nodup ∧ L.Pairwise fun a b => ¬ Under a b := by
  induction h with
  | nil => intro _ _; simp
  | @cons t n ns S L h1 h2 ih1 ih2 =>
    intro hnd hs
    rw [List.nodup_cons] at hnd
    obtain ⟨i1, i2⟩ := ih1 (reached_props hw ign _).1 (reached_props hw ign _).2
    obtain ⟨j1, j2⟩ := ih2 hnd.2 fun m hm => hs m (by simp [hm])
    refine parts_cons (hs n (by simp)) (fun m hm => hs m (by simp [hm])) hnd.1 (fun v hv => ?_) j1 j2 (fun v hv => listed_under ((listing_listed h1 v).1 hv)) i1 i2
    obtain ⟨m, hm, h⟩ := (listing_mem h2 v).1 hv
    exact ⟨m, hm, h.imp id listed_under⟩

/-! ### The function -/

/-- The specification of the recursive call. -/
def RecExact (E : Env) (w : World) (ign : Bool) (rec : List Arr → Mem → Out (Option (List Arr))) (u : Text) : Prop :=
  ∀ z, CStr z u → ∀ pl, OkOr E (maxPath + 312) (rec pl z) fun r =>
    (r = none ∧ readdir w u = none) ∨ (readdir w u ≠ none ∧ ∃ l L, r = some (pl ++ l) ∧ List.Forall₂ IsStr l L ∧ Listing w ign u (reached w ign u) L)

theorem recurseLoop_exact {E : Env} {w : World} (hw : Wf w) {ign : Bool} {z : Mem} {t : Text} (hz : CStr z t) {d : Fs.Path}
    (hr : resolve w true t = some d)
    {rec : List Arr → Mem → Out (Option (List Arr))} (hrec : ∀ n e, n ≠ [] → resolve w true (t ++ 47 :: n) = some e → RecExact E w ign rec (t ++ 47 :: n)) :
    ∀ (ns : List Name), (∀ n ∈ ns, kind w (d ++ [n]) ≠ none) → ∀ (st : Arr) (pl : List Arr), IsStr st [] →
      OkOr E (maxPath + 312) (Path.recurseLoop E w ign z rec ns st pl) fun r => ∃ l L, r = pl ++ l ∧ List.Forall₂ IsStr l L ∧
        Listing w ign t ((ns.filter fun n => !(ign && decide (n.head? = some 46))).takeWhile (opens w t)) L := by
  obtain ⟨ht0, hlen0, -⟩ := resolve_some hr
  intro ns
  induction ns with
  | nil =>
    intro _ st pl _
    exact OkOr.ok ⟨[], [], by simp, by simp, .nil⟩
  | cons n ns ih =>
    intro hk st pl hst
    have ih := ih (fun m hm => hk m (by simp [hm]))
    have hkn := hk n (by simp)
    have hn := (parent_dir hw hkn).2
    have hnl := hn.len
    rw [Path.recurseLoop, skip_ok hn, bind_ok]
    by_cases hc : ign = true ∧ n.head? = some 46
    · rw [if_pos (by simpa using hc), List.filter_cons_of_neg (by simpa using hc)]
      exact ih st pl hst
    · rw [if_neg (by simpa using hc), List.filter_cons_of_pos (by rcases Bool.eq_false_or_eq_true ign with h | h <;> simp_all)]
      refine (append_okOr hst hz ht0).bind ?_
      rintro s1 ⟨h1, -, -⟩
      refine (append_okOr h1 sepZ_cstr (by simp)).bind ?_
      rintro s2 ⟨h2, -, -⟩
      refine (append_okOr h2 (nameMem_cstr hn) hn.ne).bind ?_
      rintro s3 ⟨h3, -, -⟩
      have h3 : IsStr s3 (t ++ 47 :: n) := by simpa using h3
      rw [show Str.z s3 = .ok (t ++ 47 :: n) from h3.text, bind_ok]
      have fin : ∀ (l : List Arr) (L : List Text), List.Forall₂ IsStr l L → opens w t n = true → Listing w ign (t ++ 47 :: n) (reached w ign (t ++ 47 :: n)) L →
          OkOr E (maxPath + 312) (do
            let d ← Str.dup E s3
            let st ← Str.clear s3
            Path.recurseLoop E w ign z rec ns st (pl ++ l ++ [d])) fun r => ∃ l L, r = pl ++ l ∧ List.Forall₂ IsStr l L ∧
              Listing w ign t ((n :: ns.filter fun n => !(ign && decide (n.head? = some 46))).takeWhile (opens w t)) L := by
        intro l L hl ho hL
        refine (create_text_okOr h3.cstr (by simp)).bind fun dn hdn => ?_
        obtain ⟨s4, e4, h4, -, -⟩ := clear_ok h3
        rw [e4, bind_ok]
        refine (ih s4 (pl ++ l ++ [dn]) h4).mono ?_ (Nat.le_refl _)
        rintro r ⟨l', L', rfl, hl', hP'⟩
        refine ⟨l ++ dn :: l', L ++ (t ++ 47 :: n) :: L', by simp, List.rel_append hl (.cons hdn hl'), ?_⟩
        rw [List.takeWhile_cons_of_pos ho]
        exact .cons hL hP'
      by_cases hdir : Path.isDir w (t ++ 47 :: n) = true
      · rw [if_pos hdir]
        have hst : stat w (t ++ 47 :: n) = some .dir := by simpa [Path.isDir] using hdir
        obtain ⟨e, he, hke⟩ := isDir_resolve hdir
        refine (hrec n e hn.ne he s3.mem h3.cstr pl).bind ?_ (Nat.le_refl _)
        rintro r (⟨rfl, hnone⟩ | ⟨hsome, l, L, rfl, hl, hL⟩)
        · refine OkOr.ok ⟨[], [], by simp, by simp, ?_⟩
          rw [List.takeWhile_cons_of_neg (by simp [opens, hst, hnone])]
          exact .nil
        · exact fin l L hl (by simp [opens, Option.isSome_iff_ne_none.2 hsome]) hL
      · rw [if_neg hdir, bind_ok]
        have hst : stat w (t ++ 47 :: n) ≠ some .dir := by simpa [Path.isDir] using hdir
        have hnone : readdir w (t ++ 47 :: n) = none := by
          cases h : readdir w (t ++ 47 :: n) with
          | none => rfl
          | some ns =>
            obtain ⟨e, h1, h2, -⟩ := readdir_some h
            exact absurd (stat_dir h1 h2) hst
        have := fin [] [] (by simp) (by simp [opens, hst]) (by simpa [reached, hnone] using Listing.nil)
        simpa using this

theorem dirListRecurse_exact {E : Env} {w : World} (hw : Wf w) {ign : Bool} :
    ∀ (k : Nat) {t : Text}, 0 < k → maxPath ≤ t.length + k → RecExact E w ign (Path.dirListRecurse E w ign k) t := by
  intro k
  induction k with
  | zero => intro t h; omega
  | succ k ih =>
    intro t _ hk z hz pl
    rw [Path.dirListRecurse, hz.text, bind_ok]
    cases hex : Path.exists_ w t with
    | false => exact OkOr.ok (Or.inl ⟨rfl, readdir_none hex⟩)
    | true =>
      simp only [Bool.not_true, Bool.false_eq_true, if_false]
      cases hrd : readdir w t with
      | none => exact OkOr.ok (Or.inl ⟨rfl, rfl⟩)
      | some ns =>
        obtain ⟨d, hr, hd, rfl⟩ := readdir_some hrd
        refine (createCapacity_okOr (by decide) (by decide)).bind ?_ (by unfold maxPath defaultInit; omega)
        intro st hst
        rw [Path.recurseLoop, (skip_dots ign).1, bind_ok, if_pos rfl, Path.recurseLoop, (skip_dots ign).2, bind_ok, if_pos rfl]
        have hrec : ∀ n e, n ≠ [] → resolve w true (t ++ 47 :: n) = some e → RecExact E w ign (Path.dirListRecurse E w ign k) (t ++ 47 :: n) := by
          intro n e hn he
          have h1 := (resolve_some he).2.1
          have h2 := List.length_pos_iff.2 hn
          simp only [List.length_append, List.length_cons] at h1
          exact ih (by omega) (by simp only [List.length_append, List.length_cons]; omega)
        refine (recurseLoop_exact hw hz hr hrec (names w d) (fun n hn => mem_names.1 hn) st pl hst.1).bind ?_ (Nat.le_refl _)
        rintro r ⟨l, L, rfl, hl, hP⟩
        refine OkOr.ok (Or.inr ⟨by simp, l, L, rfl, hl, ?_⟩)
        rw [reached, hrd, Option.getD_some, shown_names (names_good hw)]
        exact hP

/-- **C62**, exactly, in any file system: NULL is returned iff the directory cannot be opened.  Otherwise the texts added to the list are the listing: for each name of
the directory in its order what is below it and then the name itself, up to the first subdirectory that cannot be opened.  So `v` is listed iff it is reached from the
directory without passing such a subdirectory; nothing is listed twice, and contents come before their directory. -/
theorem C62_exact {E : Env} {w : World} (hw : Wf w) {z : Mem} {t : Text} (hz : CStr z t) (ign : Bool) (pl : List Arr) :
    OkOr E (maxPath + 312) (Path.dirListRecurse E w ign maxPath pl z) fun r =>
      (r = none ∧ readdir w t = none) ∨ (readdir w t ≠ none ∧ ∃ l L, r = some (pl ++ l) ∧ List.Forall₂ IsStr l L ∧ Listing w ign t (reached w ign t) L ∧
        (∀ v, v ∈ L ↔ Listed w ign t v) ∧ L.Nodup ∧ L.Pairwise fun a b => ¬ ∃ r, b = a ++ 47 :: r) := by
  refine (dirListRecurse_exact hw maxPath (by decide) (by omega) z hz pl).mono ?_ (Nat.le_refl _)
  rintro r (h | ⟨h0, l, L, h1, h2, h3⟩)
  · exact .inl h
  · obtain ⟨g1, g2⟩ := listing_order hw h3 (reached_props hw ign t).1 (reached_props hw ign t).2
    exact .inr ⟨h0, l, L, h1, h2, h3, listing_listed h3, g1, g2⟩

/-- **C62** (counterexample, in general) If the directory `t` has the entry `n`, a subdirectory that cannot be opened, then neither `n` nor any entry that the directory
lists after it is in the list, nor anything below them, although NULL is not returned. -/
theorem C62_unreadable_cuts {E : Env} {w : World} (hw : Wf w) {z : Mem} {t : Text} (hz : CStr z t) (ign : Bool) (pl : List Arr) {xs ys : List Name} {n : Name}
    (hns : readdir w t = some (xs ++ n :: ys)) (hv : shown ign n = true) (hd : stat w (t ++ 47 :: n) = some .dir) (hu : readdir w (t ++ 47 :: n) = none) :
    OkOr E (maxPath + 312) (Path.dirListRecurse E w ign maxPath pl z) fun r => ∃ l L, r = some (pl ++ l) ∧ List.Forall₂ IsStr l L ∧
      ∀ m ∈ n :: ys, ∀ v ∈ L, v ≠ t ++ 47 :: m ∧ ¬ ∃ s, v = t ++ 47 :: m ++ 47 :: s := by
  refine (C62_exact hw hz ign pl).mono ?_ (Nat.le_refl _)
  rintro r (⟨-, h⟩ | ⟨-, l, L, h1, h2, h3, -, -, -⟩)
  · rw [hns] at h; cases h
  · refine ⟨l, L, h1, h2, fun m hm v hvL => ?_⟩
    obtain ⟨d, -, -, e⟩ := readdir_some hns
    have hnd : (xs ++ n :: ys).Nodup := by
      rw [e]
      refine List.nodup_cons.2 ⟨?_, List.nodup_cons.2 ⟨fun h => (names_good hw _ h).dotdot rfl, names_nodup hw d⟩⟩
      intro h
      rcases List.mem_cons.1 h with h | h
      · cases h
      · exact (names_good hw _ h).dot rfl
    have hsub : ∀ k ∈ reached w ign t, k ∈ xs := by
      intro k hk
      rw [reached, hns, Option.getD_some, List.filter_append, List.filter_cons_of_pos hv, List.takeWhile_append] at hk
      split at hk
      · rw [List.takeWhile_cons_of_neg (by simp [opens, hd, hu]), List.append_nil] at hk
        exact List.mem_of_mem_filter hk
      · exact List.mem_of_mem_filter ((List.takeWhile_sublist _).subset hk)
    obtain ⟨k, hk, hv⟩ := (listing_mem h3 v).1 hvL
    have hks := (reached_props hw ign t).2 k hk
    have hkm : k ≠ m := by
      rintro rfl
      exact (List.nodup_append.1 hnd).2.2 k (hsub k hk) k hm rfl
    have hms : 47 ∉ m := by
      have : m ∈ xs ++ n :: ys := by simp only [List.mem_append]; exact .inr hm
      rw [e] at this
      rcases List.mem_cons.1 this with rfl | this
      · decide
      · rcases List.mem_cons.1 this with rfl | this
        · decide
        · exact (names_good hw m this).sep
    have hx : ∃ x, (x = [] ∨ ∃ r, x = 47 :: r) ∧ v = t ++ 47 :: (k ++ x) := by
      rcases hv with rfl | hv
      · exact ⟨[], .inl rfl, by simp⟩
      · obtain ⟨r, rfl⟩ := listed_under hv
        exact ⟨47 :: r, .inr ⟨r, rfl⟩, by simp⟩
    obtain ⟨x, hx, rfl⟩ := hx
    constructor
    · intro h
      simp only [List.append_cancel_left_eq, List.cons.injEq, true_and] at h
      exact hkm (name_end hks hms hx (y := []) (.inl rfl) (by simpa using h))
    · rintro ⟨s, h⟩
      simp only [List.append_assoc, List.cons_append, List.append_cancel_left_eq, List.cons.injEq, true_and] at h
      exact hkm (name_end hks hms hx (.inr ⟨s, rfl⟩) h)

/-- Example: `/s` has the directories `a`, with a file, and `d`, which cannot be opened, and the file `f`. -/
def exShut : World :=
  { nodes := [([[115]], .dir), ([[115], [97]], .dir), ([[115], [97], [120]], .file []), ([[115], [100]], .dir), ([[115], [102]], .file [1])]
    readable := fun p => p ≠ [[115], [100]] }

example : reached exShut false (chars' "/s") = [[97]] ∧ readdir exShut (chars' "/s") = some ([[46], [46, 46], [97]] ++ [100] :: [[102]]) ∧
    stat exShut (chars' "/s/d") = some .dir ∧ readdir exShut (chars' "/s/d") = none ∧
    (Path.dirListRecurse exE exShut false 5 [] (zstr (chars' "/s"))).mapOk (fun o => o.map (List.map Str.z)) =
      .ok (some [.ok (chars' "/s/a/x"), .ok (chars' "/s/a")]) := by decide +kernel

end Vita
