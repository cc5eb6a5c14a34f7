import Verif.Spec.Tree
import Verif.Props.PathOps
import Verif.Props.FileIo
/-!
# Property C129: a program sees the file system as a tree
-/

namespace Vita
open Out Spec Fs
seal wadd wsub wmul

/-! ### Path texts -/

theorem dropLast_dir {w : World} (hw : Wf w) {p : Fs.Path} (hp : p ≠ []) (h : kind w p ≠ none) : kind w p.dropLast = some .dir := by
  rw [← List.dropLast_append_getLast hp] at h
  exact (parent_dir hw h).1

theorem pathText_resolve {w : World} (hw : Free w) {t : Text} (ht : PathText t) (f : Bool) :
    resolve w f t = if kind w (comps t).dropLast = some .dir then some (comps t) else none := by
  have h0 : t ≠ [] := by rintro rfl; simpa using ht.root
  rw [resolve_eq h0 ht.short, show base w t = [] by simp [base, ht.root]]
  have hn : ∀ n ∈ comps t, n ≠ [46] ∧ n ≠ [46, 46] := fun n h => ⟨(ht.good n h).dot, (ht.good n h).dotdot⟩
  have hl : 0 < (comps t).length := List.length_pos_of_ne_nil ht.some
  split
  · rename_i hd
    rw [walk_plain 40 _ _ hn ?_ (fun x => hw.noLink _ x), List.nil_append]
    intro i hi
    rw [List.nil_append]
    by_cases h : i < (comps t).dropLast.length
    · have := take_dir hw.wf (p := []) (rel := (comps t).dropLast) (by rw [List.nil_append, hd]; simp) h
      rw [List.nil_append, List.dropLast_eq_take, List.take_take] at this
      rw [List.length_dropLast] at h
      rwa [Nat.min_eq_left (by omega)] at this
    · rw [List.length_dropLast] at h
      rw [show i = (comps t).length - 1 by omega, ← List.dropLast_eq_take]
      exact hd
  · rename_i hd
    refine walk_nolink 40 _ _ hn (fun i x => hw.noLink _ x) ⟨(comps t).length - 1, by omega, ?_⟩
    rwa [List.nil_append, ← List.dropLast_eq_take]

theorem pathText_stat {w : World} (hw : Free w) {t : Text} (ht : PathText t) : stat w t = kind w (comps t) := by
  have hr := pathText_resolve hw ht true
  split at hr
  · exact stat_of hr ht.last
  · rename_i hd
    have : kind w (comps t) = none := by
      by_contra h
      exact hd (dropLast_dir hw.wf ht.some h)
    rw [stat, hr, this]
    rfl

theorem pathText_fixed {t : Text} (ht : PathText t) : fixedName t = false := by
  unfold fixedName
  rw [decide_eq_false_iff_not, List.getLast?_eq_some_getLast ht.some]
  have := ht.good _ (List.getLast_mem ht.some)
  simp [this.dot, this.dotdot]

theorem bare_iff {w : World} (p : Fs.Path) : Tree.Bare (kind w) p ↔ names w p = [] := by
  rw [List.eq_nil_iff_forall_not_mem]
  refine forall_congr' fun n => ?_
  rw [mem_names, not_not]

theorem bare_of_file {w : World} (hw : Wf w) {p : Fs.Path} (h : kind w p ≠ some .dir) : Tree.Bare (kind w) p := by
  intro n
  by_contra hc
  exact h (parent_dir hw hc).1

/-! ### The new file systems are free again -/

theorem wf_of_kind {w : World} (hn : (w.nodes.map (·.1)).Nodup) (h0 : ∀ x ∈ w.nodes, x.1 ≠ [])
    (h : ∀ p, p ≠ [] → kind w p ≠ none → kind w p.dropLast = some .dir ∧ ∀ n, p.getLast? = some n → GoodName n) : Wf w := by
  refine ⟨hn, fun x hx => ?_⟩
  obtain ⟨a, b⟩ := h x.1 (h0 x hx) ((kind_exists (h0 x hx)).2 ⟨x.2, hx⟩)
  exact ⟨x.1.dropLast, x.1.getLast (h0 x hx), (List.dropLast_append_getLast _).symm, b _ (List.getLast?_eq_some_getLast _), a⟩

theorem wf_ne {w : World} (hw : Wf w) {x : Fs.Path × Kind} (hx : x ∈ w.nodes) : x.1 ≠ [] := by
  obtain ⟨p, n, e, -⟩ := hw.parent x hx
  rw [e]; simp

theorem wf_step {w : World} (hw : Wf w) {p : Fs.Path} (hp : p ≠ []) (h : kind w p ≠ none) :
    kind w p.dropLast = some .dir ∧ ∀ n, p.getLast? = some n → GoodName n := by
  have e := List.dropLast_append_getLast hp
  have h' := parent_dir hw (p := p.dropLast) (n := p.getLast hp) (by rw [e]; exact h)
  refine ⟨h'.1, fun n hn => ?_⟩
  rw [List.getLast?_eq_some_getLast hp] at hn
  injection hn with hn
  exact hn ▸ h'.2

theorem free_add {w : World} (hw : Free w) {p : Fs.Path} (hp0 : p ≠ []) (hp : kind w p = none) (hd : kind w p.dropLast = some .dir)
    (hg : ∀ n ∈ p, GoodName n) {k : Kind} (hk : ∀ x, k ≠ .link x) : Free { w with nodes := w.nodes ++ [(p, k)] } := by
  have K := kind_add (w := w) hp k
  have dd : ∀ q : Fs.Path, q ≠ [] → q.dropLast = p → kind w q = none := by
    intro q hq e
    by_contra hc
    have := dropLast_dir hw.wf hq hc
    rw [e, hp] at this
    cases this
  have hne : p.dropLast ≠ p := fun e => by
    have := congrArg List.length e
    rw [List.length_dropLast] at this
    have := List.length_pos_of_ne_nil hp0
    omega
  refine ⟨wf_of_kind ?_ ?_ ?_, ?_, hw.readable, hw.mayCreate, hw.mayRemove, hw.mayWrite, hw.room⟩
  · simp only [List.map_append, List.map_cons, List.map_nil]
    rw [List.nodup_append]
    refine ⟨hw.wf.nodup, by simp, ?_⟩
    rintro a ha b hb rfl
    simp only [List.mem_cons, List.not_mem_nil, or_false] at hb
    obtain ⟨x, hx, e⟩ := List.mem_map.1 ha
    exact (kind_exists hp0).2 ⟨x.2, by rw [← hb, ← e]; exact hx⟩ hp
  · intro x hx
    simp only [List.mem_append, List.mem_cons, List.not_mem_nil, or_false] at hx
    rcases hx with hx | rfl
    · exact wf_ne hw.wf hx
    · exact hp0
  · intro q hq hc
    rw [K] at hc
    rw [K]
    by_cases e : q = p
    · subst e
      rw [if_neg hne]
      exact ⟨hd, fun n hn => hg n (List.mem_of_getLast? hn)⟩
    · rw [if_neg e] at hc
      obtain ⟨a, b⟩ := wf_step hw.wf hq hc
      refine ⟨?_, b⟩
      split
      · rename_i e2; exact absurd (dd q hq e2) hc
      · exact a
  · intro q x
    rw [K]
    split
    · simpa using hk x
    · exact hw.noLink q x

theorem free_without {w : World} (hw : Free w) {p : Fs.Path} (hp0 : p ≠ []) (hb : Tree.Bare (kind w) p) : Free (without w p) := by
  have K := kind_without (w := w) hp0
  refine ⟨wf_of_kind ?_ ?_ ?_, ?_, hw.readable, hw.mayCreate, hw.mayRemove, hw.mayWrite, hw.room⟩
  · exact hw.wf.nodup.sublist (List.Sublist.map _ List.filter_sublist)
  · exact fun x hx => wf_ne hw.wf (List.mem_of_mem_filter hx)
  · intro q hq hc
    rw [K] at hc
    by_cases e : q = p
    · exact absurd (if_pos e) hc
    · rw [if_neg e] at hc
      obtain ⟨a, b⟩ := wf_step hw.wf hq hc
      refine ⟨?_, b⟩
      rw [K, if_neg]
      · exact a
      · intro e2
        have := hb (q.getLast hq)
        rw [← e2, List.dropLast_append_getLast] at this
        exact hc this
  · intro q x
    rw [K]
    split
    · simp
    · exact hw.noLink q x

theorem bare_below {w : World} (hw : Wf w) {q : Fs.Path} (hb : Tree.Bare (kind w) q) {s : Fs.Path} (h : kind w (q ++ s) ≠ none) : s = [] := by
  cases s with
  | nil => rfl
  | cons a s =>
    exfalso
    by_cases hs : s = []
    · subst hs; exact h (hb a)
    · have := (prefix_dir hw s (p := q ++ [a]) hs (by simpa using h)).1
      rw [hb a] at this
      cases this

theorem bare_nodes {w : World} (hw : Wf w) {q : Fs.Path} (hb : Tree.Bare (kind w) q) : ∀ n ∈ w.nodes, q <+: n.1 → n.1 = q := by
  rintro n hn ⟨s, hs⟩
  have := bare_below hw hb (s := s) (by rw [hs]; exact (kind_exists (wf_ne hw hn)).2 ⟨n.2, hn⟩)
  rw [← hs, this, List.append_nil]

theorem free_relocate {w : World} (hw : Free w) {p q : Fs.Path} (hp0 : p ≠ []) (hq0 : q ≠ []) (hpq : ¬ p <+: q) (hp : kind w p ≠ none)
    (hb : Tree.Bare (kind w) q) (hd : kind w q.dropLast = some .dir) (hg : ∀ n ∈ q, GoodName n) : Free (relocate w p q) := by
  have hbn := bare_nodes hw.wf hb
  have K := kind_relocate hp0 hq0 hpq hbn
  have hqd : ¬ q <+: q.dropLast := fun h => by
    have := h.length_le
    rw [List.length_dropLast] at this
    have := List.length_pos_of_ne_nil hq0
    omega
  have hpd : ¬ p <+: q.dropLast := fun h => hpq (h.trans (List.dropLast_prefix q))
  refine ⟨wf_of_kind ?_ ?_ ?_, ?_, fun r => hw.readable _, fun r => hw.mayCreate _, fun r => hw.mayRemove _, fun r => hw.mayWrite _, fun r => hw.room _⟩
  · have e : (relocate w p q).nodes.map (·.1) = ((w.nodes.filter fun n => n.1 ≠ q).map (·.1)).map (moved p q) := by
      simp [relocate, List.map_map, Function.comp_def]
    rw [e]
    refine List.Nodup.map_on ?_ (hw.wf.nodup.sublist (List.Sublist.map _ List.filter_sublist))
    have mem : ∀ x ∈ (w.nodes.filter fun n => n.1 ≠ q).map (·.1), ¬ q <+: x := by
      intro x hx h
      obtain ⟨n, hn, rfl⟩ := List.mem_map.1 hx
      have := List.mem_filter.1 hn
      have h2 := hbn n this.1 h
      simp [h2] at this
    intro x hx y hy h
    unfold moved at h
    split at h <;> split at h
    · rename_i h1 h2
      obtain ⟨a, rfl⟩ := h1
      obtain ⟨b, rfl⟩ := h2
      simpa using h
    · exact absurd (h ▸ List.prefix_append q _) (mem y hy)
    · exact absurd (h ▸ List.prefix_append q _) (mem x hx)
    · exact h
  · intro x hx
    simp only [relocate, List.mem_map] at hx
    obtain ⟨n, hn, rfl⟩ := hx
    simp only [moved]
    split
    · simp [hq0]
    · exact wf_ne hw.wf (List.mem_of_mem_filter hn)
  · intro r hr hc
    rw [K] at hc
    by_cases h1 : q <+: r
    · obtain ⟨s, rfl⟩ := h1
      rw [if_pos (List.prefix_append q s), List.drop_left] at hc
      by_cases hs : s = []
      · subst hs
        rw [List.append_nil, K, if_neg hqd, if_neg hpd]
        exact ⟨hd, fun n hn => hg n (List.mem_of_getLast? hn)⟩
      · obtain ⟨a, b⟩ := wf_step hw.wf (p := p ++ s) (by simp [hs]) hc
        rw [List.dropLast_append_of_ne_nil hs] at a ⊢
        rw [K, if_pos (List.prefix_append q _), List.drop_left]
        refine ⟨a, fun n hn => b n ?_⟩
        rw [List.getLast?_append_of_ne_nil _ hs] at hn ⊢
        exact hn
    · rw [if_neg h1] at hc
      by_cases h2 : p <+: r
      · exact absurd (if_pos h2) hc
      · rw [if_neg h2] at hc
        obtain ⟨a, b⟩ := wf_step hw.wf hr hc
        rw [K, if_neg (fun h => h1 (h.trans (List.dropLast_prefix r))), if_neg (fun h => h2 (h.trans (List.dropLast_prefix r)))]
        exact ⟨a, b⟩
  · intro r x
    rw [K]
    split
    · exact hw.noLink _ x
    · split
      · simp
      · exact hw.noLink _ x

/-! ### Each call -/

/-- A call in the file system and in the tree: the same answer, and the trees correspond again. -/
def Matches (w : World) (r : World × Answer) (s : Tree × Answer) : Prop := Free r.1 ∧ kind r.1 = s.1 ∧ r.2 = s.2

theorem match_mkdir {E : Env} {w : World} (hw : Free w) {t : Text} (ht : PathText t) :
    ∃ r, call E w (.mkdir t) = .ok r ∧ Matches w r (Tree.step (kind w) (.mkdir t)) := by
  refine ⟨_, rfl, ?_⟩
  have hs := pathText_stat hw ht
  have hr := pathText_resolve hw ht false
  simp only [Tree.step, Path.mkdir, Path.exists_, hs]
  by_cases h : kind w (comps t) = none
  · rw [if_neg (by simp [h]), if_neg (by simp [h])]
    by_cases hd : kind w (comps t).dropLast = some .dir
    · rw [if_pos hd] at hr
      rw [if_pos (show Tree.Place (kind w) (comps t) from hd)]
      have e : Fs.mkdir w t = some { w with nodes := w.nodes ++ [(comps t, .dir)] } := by
        simp [Fs.mkdir, hr, h, hw.mayCreate]
      rw [e]
      exact ⟨free_add hw ht.some h hd ht.good (by simp), funext fun q => kind_add h .dir q, rfl⟩
    · rw [if_neg hd] at hr
      rw [if_neg (show ¬ Tree.Place (kind w) (comps t) from hd)]
      have e : Fs.mkdir w t = none := by simp [Fs.mkdir, hr]
      rw [e]
      exact ⟨hw, rfl, rfl⟩
  · rw [if_pos (Option.isSome_iff_ne_none.2 h), if_pos h]
    exact ⟨hw, rfl, rfl⟩

theorem fs_rmdir {w : World} (hw : Free w) {t : Text} (ht : PathText t) :
    Fs.rmdir w t = if kind w (comps t) = some .dir ∧ names w (comps t) = [] then some (without w (comps t)) else none := by
  have hr := pathText_resolve hw ht false
  have hl : (comps t).getLast? ≠ some [46] := by
    rw [List.getLast?_eq_some_getLast ht.some]
    have := (ht.good _ (List.getLast_mem ht.some)).dot
    simpa using this
  by_cases h : kind w (comps t) = some .dir
  · rw [if_pos (dropLast_dir hw.wf ht.some (by rw [h]; simp))] at hr
    simp [Fs.rmdir, hr, h, ht.some, hl, hw.mayRemove]
  · rw [if_neg (fun c => h c.1)]
    split at hr <;> simp [Fs.rmdir, hr, h]

theorem match_rmdir {E : Env} {w : World} (hw : Free w) {t : Text} (ht : PathText t) :
    ∃ r, call E w (.rmdir t) = .ok r ∧ Matches w r (Tree.step (kind w) (.rmdir t)) := by
  refine ⟨_, rfl, ?_⟩
  simp only [Tree.step, Path.rmdir, Path.exists_, pathText_stat hw ht, fs_rmdir hw ht, bare_iff]
  by_cases h : kind w (comps t) = some .dir ∧ names w (comps t) = []
  · rw [if_pos h, if_pos h, if_neg (by simp [h.1])]
    exact ⟨free_without hw ht.some ((bare_iff _).2 h.2), funext fun q => kind_without ht.some q, rfl⟩
  · rw [if_neg h, if_neg h]
    simp only [ite_self]
    exact ⟨hw, rfl, rfl⟩

theorem match_remove {E : Env} {w : World} (hw : Free w) {t : Text} (ht : PathText t) :
    ∃ r, call E w (.remove t) = .ok r ∧ Matches w r (Tree.step (kind w) (.remove t)) := by
  refine ⟨_, rfl, ?_⟩
  have hr := pathText_resolve hw ht false
  simp only [Tree.step, Path.remove, Path.exists_, pathText_stat hw ht]
  cases hk : kind w (comps t) with
  | none =>
    simp only [Option.isSome_none, Bool.not_false, if_true, ne_eq, not_true_eq_false, false_and, if_false]
    exact ⟨hw, rfl, rfl⟩
  | some k =>
    have hd := dropLast_dir hw.wf ht.some (by rw [hk]; simp)
    rw [if_pos hd] at hr
    simp only [Option.isSome_some, Bool.not_true, Bool.false_eq_true, if_false, ne_eq, reduceCtorEq, not_false_eq_true, true_and]
    by_cases hb : Tree.Bare (kind w) (comps t)
    · rw [if_pos ⟨by simp, hb⟩]
      have e : Fs.remove w t = some (without w (comps t)) := by
        by_cases hkd : k = .dir
        · subst hkd
          simp [Fs.remove, hr, hk, fs_rmdir hw ht, (bare_iff _).1 hb]
        · simp [Fs.remove, hr, hk, hkd, ht.last, hw.mayRemove]
      rw [e]
      exact ⟨free_without hw ht.some hb, funext fun q => kind_without ht.some q, rfl⟩
    · rw [if_neg (fun c => hb c.2)]
      have hkd : k = .dir := by
        by_contra hc
        exact hb (bare_of_file hw.wf (by rw [hk]; simpa using hc))
      subst hkd
      have e : Fs.remove w t = none := by
        simp [Fs.remove, hr, hk, fs_rmdir hw ht, (bare_iff _).not.1 hb]
      rw [e]
      exact ⟨hw, rfl, rfl⟩

theorem match_rename {E : Env} {w : World} (hw : Free w) {t u : Text} (ht : PathText t) (hu : PathText u) :
    ∃ r, call E w (.rename t u) = .ok r ∧ Matches w r (Tree.step (kind w) (.rename t u)) := by
  refine ⟨_, rfl, ?_⟩
  have hr := pathText_resolve hw ht false
  have hs := pathText_resolve hw hu false
  simp only [Tree.step, Path.rename, Path.exists_, pathText_stat hw ht]
  cases hk : kind w (comps t) with
  | none =>
    simp only [Option.isSome_none, Bool.not_false, if_true]
    exact ⟨hw, rfl, rfl⟩
  | some k =>
    have hd := dropLast_dir hw.wf ht.some (by rw [hk]; simp)
    rw [if_pos hd] at hr
    simp only [Option.isSome_some, Bool.not_true, Bool.false_eq_true, if_false, reduceCtorEq]
    by_cases hpq : comps t = comps u
    · rw [if_pos hpq]
      rw [← hpq, if_pos hd] at hs
      have e : Fs.rename w t u = some w := by
        simp [Fs.rename, hr, hs, hk, pathText_fixed ht, pathText_fixed hu, ht.last, hu.last]
      rw [e]
      exact ⟨hw, rfl, rfl⟩
    · rw [if_neg hpq]
      by_cases hud : kind w (comps u).dropLast = some .dir
      swap
      · rw [if_pos (Or.inr (show ¬ Tree.Place (kind w) (comps u) from hud))]
        rw [if_neg hud] at hs
        have e : Fs.rename w t u = none := by simp [Fs.rename, hr, hs]
        rw [e]
        exact ⟨hw, rfl, rfl⟩
      · rw [if_pos hud] at hs
        have main : Fs.rename w t u = if comps t <+: comps u then none else
            if replaceable w k (comps u) = true then some (relocate w (comps t) (comps u)) else none := by
          simp [Fs.rename, hr, hs, hk, pathText_fixed ht, pathText_fixed hu, ht.last, hu.last, hpq, hw.mayRemove]
        rw [main]
        by_cases hpre : comps t <+: comps u
        · rw [if_pos hpre, if_pos (Or.inl hpre)]
          exact ⟨hw, rfl, rfl⟩
        · rw [if_neg hpre, if_neg (not_or.2 ⟨hpre, not_not.2 (show Tree.Place (kind w) (comps u) from hud)⟩)]
          have hrep : replaceable w k (comps u) = true ↔
              kind w (comps u) = none ∨ (some k = some Kind.dir ↔ kind w (comps u) = some .dir) ∧ Tree.Bare (kind w) (comps u) := by
            unfold replaceable
            cases hq : kind w (comps u) with
            | none => simp [hw.mayCreate]
            | some k2 =>
              simp only [hw.mayRemove, Bool.true_and, reduceCtorEq, false_or, Option.some.injEq]
              by_cases h1 : k = .dir
              · simp [h1, bare_iff]
              · by_cases h2 : k2 = .dir
                · simp [h1, h2]
                · simp only [h1, h2, if_false, ne_eq, not_false_eq_true, decide_true, true_and, true_iff]
                  exact bare_of_file hw.wf (by rw [hq]; simpa using h2)
          by_cases hc : replaceable w k (comps u) = true
          · rw [if_pos hc, if_pos (hrep.1 hc)]
            have hb : Tree.Bare (kind w) (comps u) := by
              rcases hrep.1 hc with h | h
              · exact bare_of_file hw.wf (by rw [h]; simp)
              · exact h.2
            exact ⟨free_relocate hw ht.some hu.some hpre (by rw [hk]; simp) hb hud hu.good,
              funext fun r => kind_relocate ht.some hu.some hpre (bare_nodes hw.wf hb) r, rfl⟩
          · rw [if_neg hc, if_neg (fun h => hc (hrep.2 h))]
            exact ⟨hw, rfl, rfl⟩

theorem free_setData {w : World} (hw : Free w) {p : Fs.Path} (hp0 : p ≠ []) {d0 : List UInt8} (hp : kind w p = some (.file d0)) (d : List UInt8) :
    Free (setData w p d) := by
  have K := kind_setData (w := w) (p := p) (by rw [hp]; simp) hp0 d
  have hnp : ∀ q : Fs.Path, kind w q = some .dir → kind (setData w p d) q = some .dir := by
    intro q h
    rw [K, if_neg (by rintro rfl; rw [hp] at h; cases h), h]
  have e : (setData w p d).nodes.map (·.1) = w.nodes.map (·.1) := by
    simp only [setData, List.map_map]
    refine List.map_congr_left fun x _ => ?_
    simp only [Function.comp]
    split
    · rename_i h; exact h.symm
    · rfl
  refine ⟨wf_of_kind (by rw [e]; exact hw.wf.nodup) ?_ ?_, ?_, hw.readable, hw.mayCreate, hw.mayRemove, hw.mayWrite, hw.room⟩
  · intro x hx
    have : x.1 ∈ (setData w p d).nodes.map (·.1) := List.mem_map_of_mem hx
    rw [e] at this
    obtain ⟨y, hy, hxy⟩ := List.mem_map.1 this
    rw [← hxy]
    exact wf_ne hw.wf hy
  · intro q hq hc
    have hc' : kind w q ≠ none := by
      rw [K] at hc
      split at hc
      · rename_i h; rw [h, hp]; simp
      · exact hc
    obtain ⟨a, b⟩ := wf_step hw.wf hq hc'
    exact ⟨hnp _ a, b⟩
  · intro q x
    rw [K]
    split
    · simp
    · exact hw.noLink q x

theorem free_put {w : World} (hw : Free w) {p : Fs.Path} (hp0 : p ≠ []) {d0 : List UInt8} (hp : kind w p = some (.file d0)) (bs : List UInt8) :
    Free (put w p bs) ∧ ∀ q, kind (put w p bs) q = if q = p then some (.file (d0 ++ bs)) else kind w q := by
  have e : put w p bs = setData w p (d0 ++ bs) := by
    unfold put
    rw [hw.room, dataAt_eq, hp]
    rfl
  rw [e]
  exact ⟨free_setData hw hp0 hp _, kind_setData (by rw [hp]; simp) hp0 _⟩

theorem run_writefc {w : World} {t s : Text} (hs : 0 ∉ s) (hl : s.length < 2 ^ 31) (app ln : Bool) :
    FileIo.run w (if app then (if ln then .appendln (zstr t) (zstr s) else .append (zstr t) (zstr s)) else
      (if ln then .writeln (zstr t) (zstr s) else .write (zstr t) (zstr s))) = FileIo.writefc w (zstr t) app ln s := by
  have h := (cstr_zstr hs (by omega)).text
  cases app <;> cases ln <;>
    simp only [if_true, if_false, Bool.false_eq_true, FileIo.run, FileIo.write, FileIo.writeln, FileIo.append, FileIo.appendln, h, bind_ok]

theorem match_write {E : Env} {w : World} (hw : Free w) {t s : Text} (ht : PathText t) (hs : 0 ∉ s) (hl : s.length < 2 ^ 31) (app ln : Bool) :
    ∃ r, call E w (.write app ln t s) = .ok r ∧ Matches w r (Tree.step (kind w) (.write app ln t s)) := by
  have hz := (cstr_zstr ht.nul (by have := ht.short; unfold maxPath at this; omega)).text
  have hr := pathText_resolve hw ht true
  have two : ∀ {w1 : World} {d0 : List UInt8}, Free w1 → kind w1 (comps t) = some (.file d0) →
      (∀ q, q ≠ comps t → kind w1 q = kind w q) →
      Free (if ln then put (put w1 (comps t) s) (comps t) [10] else put w1 (comps t) s) ∧
      kind (if ln then put (put w1 (comps t) s) (comps t) [10] else put w1 (comps t) s) =
        Tree.set (kind w) (comps t) (some (.file (d0 ++ (s ++ if ln then [10] else [])))) := by
    intro w1 d0 h1 hk hq
    obtain ⟨h2, k2⟩ := free_put h1 ht.some hk s
    cases ln with
    | false =>
      refine ⟨h2, funext fun q => ?_⟩
      simp only [Bool.false_eq_true, if_false, List.append_nil]
      rw [k2, Tree.set]
      split
      · rfl
      · rename_i hne; exact hq q hne
    | true =>
      obtain ⟨h3, k3⟩ := free_put h2 ht.some (by rw [k2, if_pos rfl]) [10]
      refine ⟨h3, funext fun q => ?_⟩
      simp only [if_true]
      rw [k3, k2, Tree.set]
      by_cases hne : q = comps t
      · simp [hne]
      · simp only [if_neg hne]; exact hq q hne
  have start : call E w (.write app ln t s) = (FileIo.writefc w (zstr t) app ln s >>= fun r => .ok (r.1, r.2, [])) := by
    rw [← run_writefc hs hl app ln]
    rfl
  rw [start]
  unfold FileIo.writefc
  rw [hz, bind_ok]
  simp only [Tree.step]
  have hopen : openW w app t = if kind w (comps t).dropLast = some .dir then
      (match kind w (comps t) with
      | none => some ({ w with nodes := w.nodes ++ [(comps t, .file [])] }, comps t)
      | some (.file _) => some (if app then w else setData w (comps t) [], comps t)
      | some _ => none) else none := by
    unfold openW
    rw [hr]
    split
    · simp only [Option.bind_eq_bind, Option.bind_some, if_neg ht.last]
      split <;> simp_all [hw.mayCreate, hw.mayWrite]
    · rfl
  cases hk : kind w (comps t) with
  | none =>
    by_cases hd : kind w (comps t).dropLast = some .dir
    · rw [hk, if_pos hd] at hopen
      simp only [hopen, bind_ok, if_pos (show Tree.Place (kind w) (comps t) from hd)]
      have K := kind_add hk (.file [])
      obtain ⟨a, b⟩ := two (free_add hw ht.some hk hd ht.good (k := .file []) (by simp)) (d0 := []) (by rw [K, if_pos rfl])
        (fun q hq => by rw [K, if_neg hq])
      exact ⟨_, rfl, a, b, rfl⟩
    · rw [if_neg hd] at hopen
      simp only [hopen, bind_ok, if_neg (show ¬ Tree.Place (kind w) (comps t) from hd)]
      exact ⟨_, rfl, hw, rfl, rfl⟩
  | some k =>
    have hd := dropLast_dir hw.wf ht.some (by rw [hk]; simp)
    rw [hk, if_pos hd] at hopen
    cases k with
    | dir =>
      simp only [hopen, bind_ok]
      exact ⟨_, rfl, hw, rfl, rfl⟩
    | link x => exact absurd hk (hw.noLink _ x)
    | file d =>
      simp only [hopen, bind_ok]
      cases app with
      | true =>
        obtain ⟨a, b⟩ := two hw hk (fun q _ => rfl)
        exact ⟨_, rfl, a, b, rfl⟩
      | false =>
        have K := kind_setData (w := w) (p := comps t) (by rw [hk]; simp) ht.some []
        obtain ⟨a, b⟩ := two (free_setData hw ht.some hk []) (d0 := []) (by rw [K, if_pos rfl]) (fun q hq => by rw [K, if_neg hq])
        exact ⟨_, rfl, a, b, rfl⟩

theorem match_read {E : Env} {w : World} (hw : Free w) {t : Text} (ht : PathText t) {n : Nat} (hn : 0 < n) :
    ∃ r, call E w (.read t n) = .ok r ∧ Matches w r (Tree.step (kind w) (.read t n)) := by
  have hz : CStr (zstr t) t := cstr_zstr ht.nul (by have := ht.short; unfold maxPath at this; omega)
  have hr := pathText_resolve hw ht true
  have hst := pathText_stat hw ht
  have start : call E w (.read t n) =
      (FileIo.readToBuffer E w (zstr t) (List.replicate n none) n >>= fun r => .ok (w, r.1, r.2)) := rfl
  rw [start]
  simp only [Tree.step]
  cases hk : kind w (comps t) with
  | none =>
    have ho : openR w t = none := by
      rw [hk] at hst
      simp [openR, hst]
    simp only [FileIo.readToBuffer, hz.text, bind_ok, dassert_pos (E := E) (Or.inl hn), ho]
    exact ⟨_, rfl, hw, rfl, rfl⟩
  | some k =>
    have hd := dropLast_dir hw.wf ht.some (by rw [hk]; simp)
    rw [if_pos hd] at hr
    cases k with
    | link x => exact absurd hk (hw.noLink _ x)
    | file d =>
      rw [C65_read_to_buffer hz hr hk ht.last (hw.readable _) (Or.inl hn) (by simp), bind_ok]
      refine ⟨_, rfl, hw, rfl, ?_⟩
      simp only [List.drop_replicate]
      congr 3
      omega
    | dir =>
      rw [hk] at hst
      have ho : openR w t = some [] := by simp [openR, hr, hst, hw.readable, dataAt_eq, hk, dataOf]
      have hf : Path.fileSize w t = 4096 := by simp [Path.fileSize, hst]
      have h4 : (if n ≤ (4096 : Int).toNat then n else (4096 : Int).toNat) ≠ 0 := by split <;> omega
      simp only [FileIo.readToBuffer, hz.text, bind_ok, dassert_pos (E := E) (Or.inl hn), ho, hf, FileIo.fread, List.take_nil, List.map_nil]
      rw [if_neg (by decide), writeN_ok (by simp)]
      simp only [bind_ok, List.length_nil, Nat.min_zero]
      rw [if_pos (Ne.symm h4)]
      exact ⟨_, rfl, hw, rfl, by simp⟩

theorem match_call {E : Env} {w : World} (hw : Free w) {c : Cmd} (hc : c.Ok) :
    ∃ r, call E w c = .ok r ∧ Matches w r (Tree.step (kind w) c) := by
  cases c with
  | mkdir t => exact match_mkdir hw hc
  | rmdir t => exact match_rmdir hw hc
  | remove t => exact match_remove hw hc
  | rename t u => exact match_rename hw hc.1 hc.2
  | write app ln t s => exact match_write hw hc.1 hc.2.1 hc.2.2 app ln
  | read t n => exact match_read hw hc.1 hc.2
  | pathExists t =>
    refine ⟨_, rfl, hw, rfl, ?_⟩
    simp only [Tree.step, Path.exists_, pathText_stat hw hc]
    cases kind w (comps t) <;> simp
  | isDir t =>
    refine ⟨_, rfl, hw, rfl, ?_⟩
    simp only [Tree.step, Path.isDir, pathText_stat hw hc]
  | isFile t =>
    refine ⟨_, rfl, hw, rfl, ?_⟩
    simp only [Tree.step, Path.isFile, pathText_stat hw hc]
    cases kind w (comps t) with
    | none => simp
    | some k => cases k <;> simp

/-- **C129** Every program gets from the file functions the answers that a tree of directories and files gives, call by call, and leaves the file system that
the tree says. -/
theorem C129_program (E : Env) : ∀ (cs : List Cmd) (w : World), Free w → (∀ c ∈ cs, c.Ok) →
    ∃ w' as, calls E w cs = .ok (w', as) ∧ Free w' ∧ kind w' = (Tree.run (kind w) cs).1 ∧ as = (Tree.run (kind w) cs).2
  | [], w, hw, _ => ⟨w, [], rfl, hw, rfl, rfl⟩
  | c :: cs, w, hw, hc => by
    obtain ⟨r, h1, h2, h3, h4⟩ := match_call (E := E) hw (hc c (by simp))
    obtain ⟨w', as, h5, h6, h7, h8⟩ := C129_program E cs r.1 h2 (fun x hx => hc x (by simp [hx]))
    refine ⟨w', r.2 :: as, ?_, h6, ?_, ?_⟩
    · rw [calls, h1, bind_ok, h5, bind_ok]
    · rw [h7, h3]; rfl
    · rw [h8, h3, h4]; rfl

/-! ### What follows -/

/-- The path texts of a call that changes something. -/
def Fs.Cmd.changes : Cmd → List Text
  | .mkdir t | .rmdir t | .remove t | .write _ _ t _ => [t]
  | .rename t u => [t, u]
  | _ => []

/-- **C129** A call that returns false has changed nothing. -/
theorem C129_failure (T : Tree) (c : Cmd) (h : (Tree.step T c).2.1 = false) : (Tree.step T c).1 = T := by
  cases c with
  | write app ln t s =>
    simp only [Tree.step] at h ⊢
    split at h
    · split at h
      · cases h
      · rw [if_neg (by assumption)]
    · cases h
    · rfl
  | read t n => simp only [Tree.step]; split <;> rfl
  | mkdir t => simp only [Tree.step] at h ⊢; split at h <;> [cases h; (split at h <;> [cases h; skip])]; simp_all
  | rmdir t => simp only [Tree.step] at h ⊢; split at h <;> [cases h; rw [if_neg (by assumption)]]
  | remove t => simp only [Tree.step] at h ⊢; split at h <;> [cases h; rw [if_neg (by assumption)]]
  | rename t u =>
    simp only [Tree.step] at h ⊢
    split at h
    · rw [if_pos (by assumption)]
    · rw [if_neg (by assumption)]
      split at h
      · cases h
      · rw [if_neg (by assumption)]
        split at h
        · rw [if_pos (by assumption)]
        · rw [if_neg (by assumption)]
          split at h
          · cases h
          · rw [if_neg (by assumption)]
  | pathExists t => rfl
  | isDir t => rfl
  | isFile t => rfl

/-- **C129** A program changes nothing but what is at or below the paths it names. -/
theorem C129_frame (r : Fs.Path) : ∀ (cs : List Cmd) (T : Tree), (∀ c ∈ cs, ∀ t ∈ c.changes, ¬ comps t <+: r) → (Tree.run T cs).1 r = T r
  | [], _, _ => rfl
  | c :: cs, T, h => by
    have hc := h c (by simp)
    have step : (Tree.step T c).1 r = T r := by
      have hset : ∀ t k, ¬ comps t <+: r → Tree.set T (comps t) k r = T r := by
        intro t k hn
        rw [Tree.set, if_neg]
        rintro rfl
        exact hn (List.prefix_refl _)
      cases c with
      | mkdir t => simp only [Tree.step]; split <;> [rfl; (split <;> [exact hset _ _ (hc t (by simp [Cmd.changes])); rfl])]
      | rmdir t => simp only [Tree.step]; split <;> [exact hset _ _ (hc t (by simp [Cmd.changes])); rfl]
      | remove t => simp only [Tree.step]; split <;> [exact hset _ _ (hc t (by simp [Cmd.changes])); rfl]
      | rename t u =>
        simp only [Tree.step]
        split <;> [rfl; (split <;> [rfl; (split <;> [rfl; (split <;> [skip; rfl])])])]
        show Tree.move T (comps t) (comps u) r = T r
        rw [Tree.move, if_neg (hc u (by simp [Cmd.changes])), if_neg (hc t (by simp [Cmd.changes]))]
      | write app ln t s =>
        simp only [Tree.step]
        split
        · split <;> [exact hset _ _ (hc t (by simp [Cmd.changes])); rfl]
        · exact hset _ _ (hc t (by simp [Cmd.changes]))
        · rfl
      | read t n => simp only [Tree.step]; split <;> rfl
      | pathExists t => rfl
      | isDir t => rfl
      | isFile t => rfl
    rw [Tree.run]
    show (Tree.run (Tree.step T c).1 cs).1 r = T r
    rw [C129_frame r cs _ (fun x hx => h x (by simp [hx])), step]

theorem treeSet_set (T : Tree) (p : Fs.Path) (a b : Option Kind) : Tree.set (Tree.set T p a) p b = Tree.set T p b := by
  funext q
  simp only [Tree.set]
  split <;> rfl

theorem treeSet_same {T : Tree} {p : Fs.Path} {a : Option Kind} (h : T p = a) : Tree.set T p a = T := by
  funext q
  simp only [Tree.set]
  split
  · rename_i e; rw [e, h]
  · rfl

/-- **C129** A directory made where there was nothing and removed again, and a file written and removed again: everything is as before. -/
theorem C129_make_remove (E : Env) {w : World} (hw : Free w) {t : Text} (ht : PathText t) (hn : kind w (comps t) = none)
    (hp : kind w (comps t).dropLast = some .dir) :
    (∃ w', calls E w [.mkdir t, .rmdir t] = .ok (w', [(true, []), (true, [])]) ∧ kind w' = kind w) ∧
    ∀ app ln s, 0 ∉ s → s.length < 2 ^ 31 →
      ∃ w', calls E w [.write app ln t s, .remove t] = .ok (w', [(true, []), (true, [])]) ∧ kind w' = kind w := by
  have hbare : ∀ k, Tree.Bare (Tree.set (kind w) (comps t) k) (comps t) := by
    intro k n
    rw [Tree.set, if_neg (by simp)]
    exact bare_of_file hw.wf (by rw [hn]; simp) n
  have hpl : Tree.Place (kind w) (comps t) := hp
  constructor
  · obtain ⟨w', as, h1, -, h2, h3⟩ := C129_program E [.mkdir t, .rmdir t] w hw (by simp [Cmd.Ok, ht])
    have s1 : Tree.step (kind w) (.mkdir t) = (Tree.set (kind w) (comps t) (some .dir), true, []) := by
      simp [Tree.step, hn, hpl]
    have s2 : Tree.step (Tree.set (kind w) (comps t) (some .dir)) (.rmdir t) = (kind w, true, []) := by
      have e : Tree.set (kind w) (comps t) (some .dir) (comps t) = some .dir := if_pos rfl
      simp only [Tree.step, e, hbare, and_self, if_true, treeSet_set, treeSet_same hn]
    simp only [Tree.run, s1, s2] at h2 h3
    exact ⟨w', by rw [h1, h3], h2⟩
  · intro app ln s hs hl
    obtain ⟨w', as, h1, -, h2, h3⟩ := C129_program E [.write app ln t s, .remove t] w hw (by simp [Cmd.Ok, ht, hs]; omega)
    have s1 : Tree.step (kind w) (.write app ln t s) =
        (Tree.set (kind w) (comps t) (some (.file (s ++ if ln then [10] else []))), true, []) := by
      simp [Tree.step, hn, hpl]
    have s2 : ∀ d, Tree.step (Tree.set (kind w) (comps t) (some (.file d))) (.remove t) = (kind w, true, []) := by
      intro d
      have e : Tree.set (kind w) (comps t) (some (.file d)) (comps t) = some (.file d) := if_pos rfl
      simp only [Tree.step, e, hbare, ne_eq, reduceCtorEq, not_false_eq_true, and_self, if_true, treeSet_set, treeSet_same hn]
    simp only [Tree.run, s1, s2] at h2 h3
    exact ⟨w', by rw [h1, h3], h2⟩

/-- **C129** Renamed to a free name and back: everything is as before. -/
theorem C129_rename_back (E : Env) {w : World} (hw : Free w) {t u : Text} (ht : PathText t) (hu : PathText u) (hp : kind w (comps t) ≠ none)
    (hq : kind w (comps u) = none) (hd : kind w (comps u).dropLast = some .dir) (hpq : ¬ comps t <+: comps u) :
    ∃ w', calls E w [.rename t u, .rename u t] = .ok (w', [(true, []), (true, [])]) ∧ kind w' = kind w := by
  obtain ⟨w', as, h1, -, h2, h3⟩ := C129_program E [.rename t u, .rename u t] w hw (by simp [Cmd.Ok, ht, hu])
  have hbq : Tree.Bare (kind w) (comps u) := bare_of_file hw.wf (by rw [hq]; simp)
  have hqp : ¬ comps u <+: comps t := by
    rintro ⟨s, hs⟩
    rw [← hs] at hp
    have := bare_below hw.wf hbq hp
    rw [this, List.append_nil, hq] at hp
    exact hp rfl
  have hne : comps t ≠ comps u := by rintro h; exact hpq (by rw [h])
  have s1 : Tree.step (kind w) (.rename t u) = (Tree.move (kind w) (comps t) (comps u), true, []) := by
    simp [Tree.step, hp, hne, hpq, hq, show Tree.Place (kind w) (comps u) from hd]
  have m1 : Tree.move (kind w) (comps t) (comps u) (comps u) = kind w (comps t) := by simp [Tree.move]
  have m2 : Tree.move (kind w) (comps t) (comps u) (comps t) = none := by
    simp only [Tree.move]
    rw [if_neg hqp, if_pos (List.prefix_refl _)]
  have hdl : ∀ a : Fs.Path, a ≠ [] → ¬ a <+: a.dropLast := fun a ha h => by
    have := h.length_le
    rw [List.length_dropLast] at this
    have := List.length_pos_of_ne_nil ha
    omega
  have m3 : Tree.Place (Tree.move (kind w) (comps t) (comps u)) (comps t) := by
    show Tree.move (kind w) (comps t) (comps u) (comps t).dropLast = some .dir
    simp only [Tree.move]
    rw [if_neg (fun h => hqp (h.trans (List.dropLast_prefix _))), if_neg (hdl _ ht.some)]
    exact dropLast_dir hw.wf ht.some hp
  have back : Tree.move (Tree.move (kind w) (comps t) (comps u)) (comps u) (comps t) = kind w := by
    funext r
    simp only [Tree.move]
    by_cases a : comps t <+: r
    · obtain ⟨s, rfl⟩ := a
      simp
    · rw [if_neg a]
      by_cases b : comps u <+: r
      · rw [if_pos b]
        obtain ⟨s, rfl⟩ := b
        by_contra hc
        have := bare_below hw.wf hbq (s := s) (fun h => hc h.symm)
        subst this
        rw [List.append_nil, hq] at hc
        exact hc rfl
      · rw [if_neg b, if_neg b, if_neg a]
  have s2 : Tree.step (Tree.move (kind w) (comps t) (comps u)) (.rename u t) = (kind w, true, []) := by
    simp only [Tree.step, m1, m2, if_neg hp, if_neg (Ne.symm hne), true_or, if_true, back]
    rw [if_neg (not_or.2 ⟨hqp, not_not.2 m3⟩)]
  simp only [Tree.run, s1, s2] at h2 h3
  exact ⟨w', by rw [h1, h3], h2⟩

/-- **C129** What was written under one name is read under the other after renaming, also if there was a file of that name. -/
theorem C129_write_rename_read (E : Env) {w : World} (hw : Free w) {t u s : Text} (ht : PathText t) (hu : PathText u) (hs : 0 ∉ s)
    (hl : s.length < 2 ^ 31) (hp : kind w (comps t) = none ∨ ∃ d, kind w (comps t) = some (.file d)) (hpd : kind w (comps t).dropLast = some .dir)
    (hq : kind w (comps u) = none ∨ ∃ d, kind w (comps u) = some (.file d)) (hqd : kind w (comps u).dropLast = some .dir)
    (hne : comps t ≠ comps u) {n : Nat} (hn : 0 < n) :
    ∃ w' b, calls E w [.write false false t s, .rename t u, .read u n, .pathExists t] =
      .ok (w', [(true, []), (true, []), (true, b), (false, [])]) ∧ b = (s.take n).map some ++ List.replicate (n - s.length) none := by
  obtain ⟨w', as, h1, -, -, h3⟩ := C129_program E [.write false false t s, .rename t u, .read u n, .pathExists t] w hw
    (by simp [Cmd.Ok, ht, hu, hs, hn]; omega)
  have pre : ∀ a b : Fs.Path, a ≠ b → kind w b.dropLast = some .dir → (kind w a = none ∨ ∃ d, kind w a = some (.file d)) → ¬ a <+: b := by
    rintro a b hab hb ha ⟨x, rfl⟩
    have hx : x ≠ [] := by rintro rfl; simp at hab
    rw [List.dropLast_append_of_ne_nil hx] at hb
    have : kind w a = some .dir := by
      by_cases h : x.dropLast = []
      · rw [h, List.append_nil] at hb; exact hb
      · exact (prefix_dir hw.wf _ h (by rw [hb]; simp)).1
    rcases ha with ha | ⟨d, ha⟩ <;> rw [ha] at this <;> cases this
  have hpq := pre _ _ hne hqd hp
  have hqp := pre _ _ (Ne.symm hne) hpd hq
  have s1 : Tree.step (kind w) (.write false false t s) = (Tree.set (kind w) (comps t) (some (.file s)), true, []) := by
    rcases hp with hp | ⟨d, hp⟩ <;> simp [Tree.step, hp, show Tree.Place (kind w) (comps t) from hpd]
  have e1 : Tree.set (kind w) (comps t) (some (.file s)) (comps t) = some (.file s) := if_pos rfl
  have e2 : Tree.set (kind w) (comps t) (some (.file s)) (comps u) = kind w (comps u) := if_neg (Ne.symm hne)
  have e3 : Tree.Place (Tree.set (kind w) (comps t) (some (.file s))) (comps u) := by
    show Tree.set (kind w) (comps t) (some (.file s)) (comps u).dropLast = some .dir
    rw [Tree.set, if_neg (fun h : (comps u).dropLast = comps t => hpq (h ▸ List.dropLast_prefix (comps u)))]
    exact hqd
  have hud : kind w (comps u) ≠ some .dir := by rcases hq with h | ⟨d, h⟩ <;> rw [h] <;> simp
  have e4 : Tree.Bare (Tree.set (kind w) (comps t) (some (.file s))) (comps u) := by
    intro n
    rw [Tree.set, if_neg (fun h => hqp ⟨[n], h⟩)]
    exact bare_of_file hw.wf hud n
  have s2 : Tree.step (Tree.set (kind w) (comps t) (some (.file s))) (.rename t u) =
      (Tree.move (Tree.set (kind w) (comps t) (some (.file s))) (comps t) (comps u), true, []) := by
    simp only [Tree.step, e1, e2, if_neg hne, reduceCtorEq, if_false]
    rw [if_neg (not_or.2 ⟨hpq, not_not.2 e3⟩), if_pos ?_]
    rcases hq with h | ⟨d, h⟩
    · exact .inl (e2.trans h)
    · right
      rw [e1, e2, h]
      simp [e4]
  have m1 : Tree.move (Tree.set (kind w) (comps t) (some (.file s))) (comps t) (comps u) (comps u) = some (.file s) := by
    simp [Tree.move, e1]
  have m2 : Tree.move (Tree.set (kind w) (comps t) (some (.file s))) (comps t) (comps u) (comps t) = none := by
    simp only [Tree.move]
    rw [if_neg hqp, if_pos (List.prefix_refl _)]
  simp only [Tree.run, s1, s2] at h3
  simp only [Tree.step, m1, m2, ne_eq, not_true_eq_false, decide_false] at h3
  exact ⟨w', _, by rw [h1, h3], rfl⟩

/-- Example: a free file system, and a program: make a directory, write a file into it, move the directory, read the file, try to remove the directory. -/
example : Free { nodes := [([[97]], .dir)] } := by
  refine ⟨⟨by decide, ?_⟩, ?_, by simp, by simp, by simp, by simp, by simp⟩
  · intro q hq
    simp only [List.mem_cons, List.not_mem_nil, or_false] at hq
    subst hq
    exact ⟨[], [97], rfl, ⟨by decide, by decide, by decide, by decide, by decide, by decide⟩, rfl⟩
  · intro q x
    unfold kind
    split
    · simp
    · rw [List.find?_cons]
      split <;> simp
example : PathText (chars' "/a/b") :=
  ⟨by decide +kernel, by decide +kernel, by decide +kernel, by decide +kernel, by decide +kernel, by
    rw [show comps (chars' "/a/b") = [[97], [98]] by decide +kernel]
    intro n hn
    simp only [List.mem_cons, List.not_mem_nil, or_false] at hn
    rcases hn with rfl | rfl <;> exact ⟨by decide, by decide, by decide, by decide, by decide, by decide⟩⟩
example : (calls exE { nodes := [] } [.mkdir (chars' "/a"), .write false true (chars' "/a/f") [120], .rename (chars' "/a") (chars' "/b"),
      .read (chars' "/b/f") 3, .rmdir (chars' "/b"), .mkdir (chars' "/a/c"), .remove (chars' "/b/f"), .rmdir (chars' "/b")]).mapOk
      (fun r => (r.1.nodes, r.2)) =
    .ok ([], [(true, []), (true, []), (true, []), (true, [some 120, some 10, none]), (false, []), (false, []), (true, []), (true, [])]) := by
  decide +kernel

end Vita
