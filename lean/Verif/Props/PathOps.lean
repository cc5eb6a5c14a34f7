import Verif.Props.PathFs
/-!
# Single operations on the file system (C86)
-/

namespace Vita
open Out Spec Fs

/-! ### Queries -/

/-- Following links to the end never ends at a link. -/
theorem walk1_noLink {w : World} (hw : Wf w) {rec : Fs.Path → List Name → Option Fs.Path}
    (hrec : ∀ cur cs p, kind w cur = some .dir → rec cur cs = some p → ∀ x, kind w p ≠ some (.link x)) :
    ∀ (cs : List Name) (cur p : Fs.Path), (∀ x, kind w cur ≠ some (.link x)) → walk1 w true rec cur cs = some p →
      ∀ x, kind w p ≠ some (.link x)
  | [], cur, p, hc, h => by
    rw [walk1] at h; injection h with h; exact h ▸ hc
  | c :: cs, cur, p, hc, h => by
    rw [walk1] at h
    split at h
    · cases h
    rename_i hd
    have hd : kind w cur = some .dir := not_not.1 hd
    split at h
    · exact walk1_noLink hw hrec cs cur p hc h
    split at h
    · refine walk1_noLink hw hrec cs cur.dropLast p ?_ h
      have : kind w cur.dropLast = some .dir := prefix_of_dir hw hd (List.dropLast_prefix cur)
      simp [this]
    split at h
    · rename_i hk
      split at h
      · injection h with h; rw [← h, hk]; simp
      · cases h
    · split at h
      · rename_i hf; cases hf.2
      · refine hrec _ _ p ?_ h
        split
        · exact kind_nil w
        · exact hd
    · rename_i hl hk
      refine walk1_noLink hw hrec cs _ p (fun x hx => ?_) h
      rw [hk] at hx
      injection hx with hx
      exact hl x hx

theorem walk_noLink {w : World} (hw : Wf w) : ∀ (l : Nat) (cs : List Name) (cur p : Fs.Path), (∀ x, kind w cur ≠ some (.link x)) →
    walk w true l cur cs = some p → ∀ x, kind w p ≠ some (.link x)
  | 0, cs, cur, p, hc, h => walk1_noLink hw (by simp) cs cur p hc h
  | l + 1, cs, cur, p, hc, h =>
    walk1_noLink hw (fun cur cs p hd h => walk_noLink hw l cs cur p (by simp [hd]) h) cs cur p hc h

theorem stat_noLink {w : World} (hw : Wf w) (hcwd : kind w w.cwd = some .dir) (t : Text) (x : List UInt8) :
    stat w t ≠ some (.link x) := by
  intro h
  unfold stat at h
  cases hr : resolve w true t with
  | none => rw [hr] at h; cases h
  | some p =>
    have hk : kind w p = some (.link x) := by
      rw [hr] at h
      simp only [Option.bind_eq_bind, Option.bind_some] at h
      cases hkp : kind w p with
      | none => rw [hkp] at h; cases h
      | some k =>
        rw [hkp] at h
        simp only [Option.bind_some] at h
        split at h
        · cases h
        · injection h with h; rw [h]
    obtain ⟨-, -, hwk⟩ := resolve_some hr
    refine walk_noLink hw 40 _ _ p ?_ hwk x hk
    unfold base
    split
    · simp [kind_nil]
    · simp [hcwd]

/-- **C86** `vt_path_exists`, `vt_path_is_dir` and `vt_path_is_file` agree: what exists is either a directory or a regular file, not both, and
the size of a file is the number of bytes that can be read from it; -1 is returned exactly for what does not exist. -/
theorem C86_queries (w : World) (hw : Wf w) (hcwd : kind w w.cwd = some .dir) (t : Text) :
    (Path.exists_ w t = true ↔ Path.isDir w t = true ∨ Path.isFile w t = true) ∧
    ¬ (Path.isDir w t = true ∧ Path.isFile w t = true) ∧
    (Path.exists_ w t = false ↔ Path.fileSize w t = -1) ∧
    (∀ d, openR w t = some d → Path.isFile w t = true → Path.fileSize w t = d.length) := by
  have hnl := stat_noLink hw hcwd t
  unfold Path.exists_ Path.isDir Path.isFile Path.fileSize
  cases hs : stat w t with
  | none => simp
  | some k =>
    cases k with
    | dir => simp
    | link x => exact absurd hs (hnl x)
    | file d =>
      refine ⟨by simp, by simp, by simp, ?_⟩
      intro d' ho _
      unfold openR at ho
      cases hr : resolve w true t with
      | none => rw [hr] at ho; cases ho
      | some p =>
        have hk : kind w p = some (.file d) := by
          rw [stat, hr] at hs
          simp only [Option.bind_eq_bind, Option.bind_some] at hs
          cases hkp : kind w p with
          | none => rw [hkp] at hs; cases hs
          | some k =>
            rw [hkp] at hs
            simp only [Option.bind_some] at hs
            split at hs
            · cases hs
            · injection hs with hs; rw [hs]
        rw [hr, hs] at ho
        simp only [Option.bind_eq_bind, Option.bind_some] at ho
        split at ho
        · injection ho with ho
          simp only [← ho, dataAt, hk]
        · cases ho

/-! ### Making and removing one entry -/

theorem kind_add {w : World} {p : Fs.Path} (hp : kind w p = none) (k : Kind) (q : Fs.Path) :
    kind { w with nodes := w.nodes ++ [(p, k)] } q = if q = p then some k else kind w q := by
  have hp0 : p ≠ [] := by rintro rfl; rw [kind_nil] at hp; cases hp
  by_cases hq : q = []
  · subst hq; rw [kind_nil, kind_nil, if_neg (Ne.symm hp0)]
  · rw [kind_ne hq, kind_ne hq, List.find?_append]
    by_cases hqp : q = p
    · subst hqp
      have : w.nodes.find? (fun n => decide (n.1 = q)) = none := by
        rw [kind_ne hq] at hp; exact Option.map_eq_none_iff.1 hp
      simp [this]
    · rw [if_neg hqp]
      have : [(p, k)].find? (fun n => decide (n.1 = q)) = none := by simp [Ne.symm hqp]
      rw [this]; simp

/-- **C86** `vt_path_mkdir`: if it returns false, nothing has changed.  If it returns true, something exists under that name: either it existed
before and nothing has changed, or the new directory is all that has changed. -/
theorem C86_mkdir (w : World) (t : Text) :
    ((Path.mkdir w t).2 = false → (Path.mkdir w t).1 = w) ∧
    ((Path.mkdir w t).2 = true →
      (stat w t ≠ none ∧ (Path.mkdir w t).1 = w) ∨
      (stat w t = none ∧ ∃ p, resolve w false t = some p ∧ kind w p = none ∧
        ∀ q, kind (Path.mkdir w t).1 q = if q = p then some .dir else kind w q)) := by
  unfold Path.mkdir Path.exists_
  cases hs : stat w t with
  | some k => simp
  | none =>
    simp only [Option.isSome_none, Bool.false_eq_true, if_false]
    cases hm : Fs.mkdir w t with
    | none => simp
    | some w' =>
      refine ⟨by simp, fun _ => Or.inr ⟨trivial, ?_⟩⟩
      unfold Fs.mkdir at hm
      cases hr : resolve w false t with
      | none => rw [hr] at hm; cases hm
      | some p =>
        rw [hr] at hm
        simp only [Option.bind_eq_bind, Option.bind_some] at hm
        split at hm
        · rename_i hc
          injection hm with hm
          subst hm
          exact ⟨p, rfl, hc.1, fun q => kind_add hc.1 .dir q⟩
        · cases hm

/-- **C86** `vt_path_rmdir` and `vt_path_remove`: if they return false, nothing has changed; if they return true, exactly one entry is gone, the one
that was named (not what a link leads to), and if it was a directory it was empty. -/
theorem C86_remove (w : World) (t : Text) (r : World × Bool) (h : r = Path.rmdir w t ∨ r = Path.remove w t) :
    (r.2 = false → r.1 = w) ∧
    (r.2 = true → ∃ p k, resolve w false t = some p ∧ kind w p = some k ∧ (k = .dir → names w p = []) ∧
      (r = Path.rmdir w t → k = .dir) ∧
      ∀ q, kind r.1 q = if q = p then none else kind w q) := by
  have dir : ∀ w', Fs.rmdir w t = some w' → ∃ p, resolve w false t = some p ∧ kind w p = some .dir ∧ names w p = [] ∧
      ∀ q, kind w' q = if q = p then none else kind w q := by
    intro w' hm
    unfold Fs.rmdir at hm
    cases hr : resolve w false t with
    | none => rw [hr] at hm; cases hm
    | some p =>
      rw [hr] at hm
      simp only [Option.bind_eq_bind, Option.bind_some] at hm
      split at hm
      · rename_i hc
        injection hm with hm
        subst hm
        exact ⟨p, rfl, hc.1, hc.2.2.1, kind_without hc.2.1⟩
      · cases hm
  have rd : ∀ r, r = Path.rmdir w t → (r.2 = false → r.1 = w) ∧
      (r.2 = true → ∃ p, resolve w false t = some p ∧ kind w p = some .dir ∧ names w p = [] ∧
      ∀ q, kind r.1 q = if q = p then none else kind w q) := by
    rintro r rfl
    unfold Path.rmdir
    split
    · simp
    · cases hm : Fs.rmdir w t with
      | none => simp
      | some w' => exact ⟨by simp, fun _ => dir w' hm⟩
  by_cases h1 : r = Path.rmdir w t
  · obtain ⟨a, b⟩ := rd r h1
    refine ⟨a, fun hr => ?_⟩
    obtain ⟨p, e1, e2, e3, e4⟩ := b hr
    exact ⟨p, .dir, e1, e2, fun _ => e3, fun _ => rfl, e4⟩
  · rcases h with h | h
    · exact absurd h h1
    · refine ⟨?_, ?_⟩
      · rw [h]; unfold Path.remove
        split
        · simp
        · cases hm : Fs.remove w t <;> simp
      · intro hr
        rw [h] at hr ⊢
        have h1' : ¬ Path.remove w t = Path.rmdir w t := h ▸ h1
        revert hr
        have key : ∀ w', Fs.remove w t = some w' → ∃ p k, resolve w false t = some p ∧ kind w p = some k ∧ (k = .dir → names w p = []) ∧
            ∀ q, kind w' q = if q = p then none else kind w q := by
          intro w' hm
          unfold Fs.remove at hm
          cases hr : resolve w false t with
          | none => rw [hr] at hm; cases hm
          | some p =>
            rw [hr] at hm
            simp only [Option.bind_eq_bind, Option.bind_some] at hm
            cases hk : kind w p with
            | none => rw [hk] at hm; cases hm
            | some k =>
              rw [hk] at hm
              simp only [Option.bind_some] at hm
              by_cases hd : k = .dir
              · rw [if_pos hd] at hm
                obtain ⟨p', e1, e2, e3, e4⟩ := dir w' hm
                rw [hr] at e1
                injection e1 with e1
                subst e1
                exact ⟨p, k, rfl, hk, fun _ => e3, e4⟩
              · rw [if_neg hd] at hm
                split at hm
                · injection hm with hm
                  subst hm
                  have hp0 : p ≠ [] := by rintro rfl; rw [kind_nil] at hk; injection hk with hk; exact hd hk.symm
                  exact ⟨p, k, rfl, hk, fun hc => absurd hc hd, kind_without hp0⟩
                · cases hm
        unfold Path.remove
        split
        · simp
        · rename_i hn
          cases hm : Fs.remove w t with
          | none => simp
          | some w' =>
            intro _
            obtain ⟨p, k, e1, e2, e3, e4⟩ := key w' hm
            refine ⟨p, k, e1, e2, e3, ?_, e4⟩
            intro hc
            exfalso
            apply h1'
            rw [← hc, Path.remove, hm]
            rw [if_neg hn]

/-! ### Renaming -/

theorem moved_below (p q r : Fs.Path) : moved p q (p ++ r) = q ++ r := by
  simp [moved]

theorem find?_congr_mem {l : List α} {f g : α → Bool} (h : ∀ x ∈ l, f x = g x) : l.find? f = l.find? g := by
  induction l with
  | nil => rfl
  | cons a l ih =>
    rw [List.find?_cons, List.find?_cons, h a (by simp), ih (fun x hx => h x (by simp [hx]))]

/-- Everything at and below `p` is at `q` afterwards. -/
theorem kind_relocate {w : World} {p q : Fs.Path} (hp0 : p ≠ []) (hq0 : q ≠ []) (hpq : ¬ p <+: q)
    (hb : ∀ n ∈ w.nodes, q <+: n.1 → n.1 = q) (r : Fs.Path) :
    kind (relocate w p q) r = if q <+: r then kind w (p ++ r.drop q.length) else if p <+: r then none else kind w r := by
  by_cases hr : r = []
  · subst hr
    have h1 : ¬ q <+: [] := fun h => hq0 (List.prefix_nil.1 h)
    have h2 : ¬ p <+: [] := fun h => hp0 (List.prefix_nil.1 h)
    rw [if_neg h1, if_neg h2, kind_nil, kind_nil]
  · have e : ∀ (f : Fs.Path × Kind → Bool),
        (∀ n ∈ w.nodes, (decide (n.1 ≠ q) && decide (moved p q n.1 = r)) = f n) →
        kind (relocate w p q) r = (w.nodes.find? f).map (·.2) := by
      intro f hf
      rw [kind_ne hr]
      simp only [relocate, List.find?_map, List.find?_filter, Option.map_map]
      rw [find?_congr_mem (g := f) (fun n hn => by rw [← hf n hn]; simp)]
      rfl
    by_cases hqr : q <+: r
    · obtain ⟨s, rfl⟩ := hqr
      rw [if_pos (List.prefix_append q s), List.drop_left, kind_ne (w := w) (p := p ++ s) (by simp [hp0])]
      apply e
      intro n hn
      rw [Bool.eq_iff_iff]
      simp only [Bool.and_eq_true, decide_eq_true_eq]
      constructor
      · rintro ⟨h1, h2⟩
        unfold moved at h2
        split at h2
        · rename_i hpn
          obtain ⟨x, hx⟩ := hpn
          rw [← hx, List.drop_left] at h2
          rw [← hx, List.append_cancel_left h2]
        · exact absurd (hb n hn (h2 ▸ List.prefix_append q s)) h1
      · intro h
        refine ⟨?_, by rw [h, moved_below]⟩
        rintro rfl
        exact hpq (h ▸ List.prefix_append p s)
    · rw [if_neg hqr]
      by_cases hpr : p <+: r
      · rw [if_pos hpr, e (fun _ => false)]
        · simp
        · intro n hn
          rw [Bool.and_eq_false_iff]
          right
          rw [decide_eq_false_iff_not]
          intro h
          unfold moved at h
          split at h
          · exact hqr (h ▸ List.prefix_append q _)
          · rename_i hpn; exact hpn (h ▸ hpr)
      · rw [if_neg hpr, kind_ne (w := w) hr]
        apply e
        intro n hn
        rw [Bool.eq_iff_iff]
        simp only [Bool.and_eq_true, decide_eq_true_eq]
        constructor
        · rintro ⟨h1, h2⟩
          unfold moved at h2
          split at h2
          · exact absurd (h2 ▸ List.prefix_append q _) hqr
          · exact h2
        · intro h
          refine ⟨fun hc => hqr (by rw [← h, hc]), ?_⟩
          rw [moved, if_neg (h ▸ hpr), h]

/-- What a successful `rename` has done. -/
theorem fs_rename_some {w w' : World} (hw : Wf w) {t1 t2 : Text} (hm : Fs.rename w t1 t2 = some w') :
    ∃ p q k, resolve w false t1 = some p ∧ resolve w false t2 = some q ∧ kind w p = some k ∧
      (p = q → w' = w) ∧
      (p ≠ q →
        (∀ k2, kind w q = some k2 → (k = .dir ↔ k2 = .dir) ∧ names w q = []) ∧
        (∀ rel, kind w' (q ++ rel) = kind w (p ++ rel)) ∧
        (∀ rel, kind w' (p ++ rel) = none) ∧
        (∀ r, ¬ p <+: r → ¬ q <+: r → kind w' r = kind w r)) := by
  unfold Fs.rename at hm
  cases hr1 : resolve w false t1 with
  | none => rw [hr1] at hm; cases hm
  | some p =>
    cases hr2 : resolve w false t2 with
    | none => rw [hr1, hr2] at hm; cases hm
    | some q =>
      rw [hr1, hr2] at hm
      simp only [Option.bind_eq_bind, Option.bind_some] at hm
      cases hk : kind w p with
      | none => rw [hk] at hm; cases hm
      | some k =>
        rw [hk] at hm
        simp only [Option.bind_some] at hm
        refine ⟨p, q, k, rfl, rfl, hk, ?_⟩
        split at hm
        · cases hm
        split at hm
        · cases hm
        split at hm
        · rename_i hpq
          injection hm with hm
          exact ⟨fun _ => hm.symm, fun h => absurd hpq h⟩
        split at hm
        · cases hm
        split at hm
        · rename_i hpq hnp hc
          injection hm with hm
          subst hm
          refine ⟨fun h => absurd h hpq, fun _ => ?_⟩
          have hp0 : p ≠ [] := by rintro rfl; exact hnp (List.nil_prefix)
          -- what is at q
          have hrep : ∀ k2, kind w q = some k2 → (k = .dir ↔ k2 = .dir) ∧ names w q = [] := by
            intro k2 h2
            have := hc.2
            rw [replaceable, h2] at this
            simp only [Bool.and_eq_true] at this
            by_cases hkd : k = .dir
            · rw [if_pos hkd] at this
              simp only [Bool.and_eq_true, decide_eq_true_eq] at this
              exact ⟨⟨fun _ => this.2.1, fun _ => hkd⟩, this.2.2⟩
            · rw [if_neg hkd] at this
              simp only [decide_eq_true_eq] at this
              refine ⟨⟨fun h => absurd h hkd, fun h => absurd h this.2⟩, ?_⟩
              rw [List.eq_nil_iff_forall_not_mem]
              intro n hn
              have hd := (parent_dir hw (mem_names.1 hn)).1
              rw [h2] at hd
              injection hd with hd
              exact this.2 hd
          have hq0 : q ≠ [] := by
            rintro rfl
            have hn := (hrep .dir (kind_nil w)).2
            obtain ⟨a, l, hal⟩ := List.exists_cons_of_ne_nil hp0
            have hka : kind w ([] ++ (a :: l)) ≠ none := by rw [List.nil_append, ← hal, hk]; simp
            have : kind w ([] ++ [a]) ≠ none := by
              by_cases hl : l = []
              · subst hl; simpa using hka
              · have := (prefix_dir hw l (p := [a]) hl (by simpa using hka)).1
                simp [this]
            have := mem_names.2 this
            rw [hn] at this
            cases this
          have hb : ∀ n ∈ w.nodes, q <+: n.1 → n.1 = q := by
            intro n hn hqn
            obtain ⟨s, hs⟩ := hqn
            cases s with
            | nil => simpa using hs.symm
            | cons a s =>
              exfalso
              have hne : n.1 ≠ [] := by rw [← hs]; simp
              have hkn : kind w (q ++ (a :: s)) ≠ none := by
                rw [hs]; exact (kind_exists hne).2 ⟨n.2, hn⟩
              have hka : kind w (q ++ [a]) ≠ none := by
                by_cases hl : s = []
                · subst hl; exact hkn
                · have := (prefix_dir hw s (p := q ++ [a]) hl (by simpa using hkn)).1
                  simp [this]
              obtain ⟨h1, -⟩ := parent_dir hw hka
              have := mem_names.2 hka
              rw [(hrep _ h1).2] at this
              cases this
          have K := kind_relocate hp0 hq0 hnp hb
          refine ⟨hrep, fun rel => ?_, fun rel => ?_, fun r h1 h2 => ?_⟩
          · show kind (relocate w p q) _ = _
            rw [K, if_pos (List.prefix_append q rel), List.drop_left]
          · show kind (relocate w p q) _ = _
            rw [K]
            by_cases hq : q <+: p ++ rel
            · rw [if_pos hq]
              by_cases hqp : q <+: p
              · exfalso
                obtain ⟨s, hs⟩ := hqp
                have hs0 : s ≠ [] := by rintro rfl; exact hpq (by simpa using hs.symm)
                have hkn : kind w (q ++ s) ≠ none := by rw [hs, hk]; simp
                obtain ⟨a, l, rfl⟩ := List.exists_cons_of_ne_nil hs0
                have hne : p ≠ [] := hp0
                obtain ⟨k', hk'⟩ := (kind_exists hne).1 (by rw [hk]; simp)
                have := hb _ hk' ⟨a :: l, hs⟩
                exact hpq this
              · exact absurd (List.prefix_of_prefix_length_le (List.prefix_append p rel) hq
                  (by
                    rcases Nat.le_total p.length q.length with h | h
                    · exact h
                    · exact absurd (List.prefix_of_prefix_length_le hq (List.prefix_append p rel) h) hqp)) hnp
            · rw [if_neg hq, if_pos (List.prefix_append p rel)]
          · show kind (relocate w p q) _ = _
            rw [K, if_neg h2, if_neg h1]
        · cases hm

/-- **C86** `vt_path_rename`: if it returns false, nothing has changed.  If it returns true and the two names are different places, then everything that
was at and below the first is at and below the second, nothing is left at the first, what was at the second is replaced, and everything else is as before;
what was replaced was neither a directory with entries nor of the other sort (directory or not). -/
theorem C86_rename (w : World) (hw : Wf w) (t1 t2 : Text) :
    ((Path.rename w t1 t2).2 = false → (Path.rename w t1 t2).1 = w) ∧
    ((Path.rename w t1 t2).2 = true → ∃ p q k, resolve w false t1 = some p ∧ resolve w false t2 = some q ∧ kind w p = some k ∧
      (p = q → (Path.rename w t1 t2).1 = w) ∧
      (p ≠ q →
        (∀ k2, kind w q = some k2 → (k = .dir ↔ k2 = .dir) ∧ names w q = []) ∧
        (∀ rel, kind (Path.rename w t1 t2).1 (q ++ rel) = kind w (p ++ rel)) ∧
        (∀ rel, kind (Path.rename w t1 t2).1 (p ++ rel) = none) ∧
        (∀ r, ¬ p <+: r → ¬ q <+: r → kind (Path.rename w t1 t2).1 r = kind w r))) := by
  unfold Path.rename
  split
  · simp
  · cases hm : Fs.rename w t1 t2 with
    | none => simp
    | some w' =>
      refine ⟨by simp, fun _ => ?_⟩
      exact fs_rename_some hw hm

/-- **C86** A path that exists can be renamed to a free name in an existing directory, if the process may do both and the new name is not below the old one. -/
theorem C86_rename_succeeds (w : World) (t1 t2 : Text) (p q : Fs.Path) (k : Kind) (h1 : resolve w false t1 = some p)
    (hk : kind w p = some k) (hex : stat w t1 ≠ none) (h2 : resolve w false t2 = some q) (hq : kind w q = none) (hpq : ¬ p <+: q)
    (hf1 : fixedName t1 = false) (hf2 : fixedName t2 = false) (hs : k = .dir ∨ t1.getLast? ≠ some 47 ∧ t2.getLast? ≠ some 47)
    (hr : w.mayRemove p = true) (hc : w.mayCreate q = true) :
    (Path.rename w t1 t2).2 = true := by
  have hex' : Path.exists_ w t1 = true := by
    rw [Path.exists_]; exact Option.isSome_iff_ne_none.2 hex
  have hne : p ≠ q := by rintro rfl; exact hpq (List.prefix_refl p)
  have hs' : ¬ ((t1.getLast? = some 47 ∨ t2.getLast? = some 47) ∧ k ≠ .dir) := by
    rintro ⟨ha, hb⟩
    rcases hs with hs | ⟨hs1, hs2⟩
    · exact hb hs
    · rcases ha with ha | ha
      · exact hs1 ha
      · exact hs2 ha
  have : Fs.rename w t1 t2 = some (relocate w p q) := by
    simp only [Fs.rename, h1, h2, hk, Option.bind_eq_bind, Option.bind_some, hf1, hf2, Bool.false_eq_true, or_self, if_false]
    rw [if_neg hs', if_neg hne, if_neg hpq, if_pos ⟨hr, by rw [replaceable, hq]; exact hc⟩]
  simp [Path.rename, hex', this]

/-- Renaming `/a` (a directory with the file `x`) to `/b`. -/
example : (Path.rename { nodes := [([[97]], .dir), ([[97], [120]], .file [1]), ([[99]], .file [2])] } (chars' "/a") (chars' "/b")).1.nodes =
    [([[98]], .dir), ([[98], [120]], .file [1]), ([[99]], .file [2])] := by decide +kernel
example : Wf { nodes := [([[97]], .dir), ([[97], [120]], .file [1]), ([[99]], .file [2])] } := by
  refine ⟨by decide, ?_⟩
  intro q hq
  simp only [List.mem_cons, List.not_mem_nil, or_false] at hq
  rcases hq with rfl | rfl | rfl
  · exact ⟨[], [97], rfl, ⟨by decide, by decide, by decide, by decide, by decide, by decide⟩, by decide⟩
  · exact ⟨[[97]], [120], rfl, ⟨by decide, by decide, by decide, by decide, by decide, by decide⟩, by decide⟩
  · exact ⟨[], [99], rfl, ⟨by decide, by decide, by decide, by decide, by decide, by decide⟩, by decide⟩

/-- **C86** (counterexample to "what exists can be renamed and removed") A link that leads nowhere is an entry, but `vt_path_rename` and `vt_path_remove` find
that it does not exist. -/
theorem C86_dangling_link :
    (Path.rename { nodes := [([[108]], .link (chars' "/o"))] } (chars' "/l") (chars' "/m")).2 = false ∧
    (Fs.rename { nodes := [([[108]], .link (chars' "/o"))] } (chars' "/l") (chars' "/m")).isSome = true ∧
    (Path.remove { nodes := [([[108]], .link (chars' "/o"))] } (chars' "/l")).2 = false := by decide +kernel

/-- **C86** (counterexample to "true means that there is a directory") `vt_path_mkdir` returns true where there is a file. -/
theorem C86_mkdir_true_for_file :
    (Path.mkdir { nodes := [([[120]], .file [])] } (chars' "/x")).2 = true ∧
    Path.isDir (Path.mkdir { nodes := [([[120]], .file [])] } (chars' "/x")).1 (chars' "/x") = false := by decide +kernel

end Vita
