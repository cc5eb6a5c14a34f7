import Verif.Spec.Fs
import Verif.Lemmas.Text
import Mathlib.Data.List.Nodup
/-! Lemmas about file-system states and path resolution. -/

namespace Vita.Fs
open Spec

theorem kind_nil (w : World) : kind w [] = some .dir := by simp [kind]

theorem kind_ne {w : World} {p : Path} (h : p ≠ []) : kind w p = (w.nodes.find? fun q => q.1 = p).map (·.2) := by simp [kind, h]

theorem kind_some {w : World} (hw : Wf w) {p : Path} (h : p ≠ []) {k : Kind} : kind w p = some k ↔ (p, k) ∈ w.nodes := by
  rw [kind_ne h]
  constructor
  · intro e
    obtain ⟨q, hq, rfl⟩ := Option.map_eq_some_iff.1 e
    have h1 := List.mem_of_find?_eq_some hq
    have h2 := List.find?_some hq
    simp only [decide_eq_true_eq] at h2
    rw [← h2]; exact h1
  · intro hm
    cases hf : w.nodes.find? (fun q => decide (q.1 = p)) with
    | none =>
      have := List.find?_eq_none.1 hf _ hm
      simp at this
    | some q =>
      have h1 := List.mem_of_find?_eq_some hf
      have h2 := List.find?_some hf
      simp only [decide_eq_true_eq] at h2
      have := List.inj_on_of_nodup_map hw.nodup h1 hm (by simpa using h2)
      rw [this]; rfl

theorem kind_exists {w : World} {p : Path} (h : p ≠ []) : kind w p ≠ none ↔ ∃ k, (p, k) ∈ w.nodes := by
  rw [kind_ne h]
  constructor
  · intro e
    obtain ⟨k, hk⟩ := Option.ne_none_iff_exists'.1 e
    obtain ⟨q, hq, rfl⟩ := Option.map_eq_some_iff.1 hk
    have h1 := List.mem_of_find?_eq_some hq
    have h2 := List.find?_some hq
    simp only [decide_eq_true_eq] at h2
    exact ⟨q.2, by rw [← h2]; exact h1⟩
  · rintro ⟨k, hk⟩ e
    rw [Option.map_eq_none_iff, List.find?_eq_none] at e
    have := e _ hk
    simp at this

/-- The directory of something that exists. -/
theorem parent_dir {w : World} (hw : Wf w) {p : Path} {n : Name} (h : kind w (p ++ [n]) ≠ none) : kind w p = some .dir ∧ GoodName n := by
  obtain ⟨k, hk⟩ := (kind_exists (by simp)).1 h
  obtain ⟨p', n', e, hg, hd⟩ := hw.parent _ hk
  obtain ⟨e1, e2⟩ := List.append_inj' (show p ++ [n] = p' ++ [n'] from e) rfl
  injection e2 with e2
  exact ⟨e1 ▸ hd, e2 ▸ hg⟩

theorem prefix_dir {w : World} (hw : Wf w) : ∀ (rel : Path) {p : Path}, rel ≠ [] → kind w (p ++ rel) ≠ none →
    kind w p = some .dir ∧ ∀ n ∈ rel, GoodName n := by
  intro rel
  induction rel with
  | nil => intro p h; exact absurd rfl h
  | cons n rel ih =>
    intro p _ h
    have h1 : kind w ((p ++ [n]) ++ rel) ≠ none := by simpa using h
    by_cases hr : rel = []
    · subst hr
      simp only [List.append_nil] at h1
      obtain ⟨a, b⟩ := parent_dir hw h1
      exact ⟨a, by simpa using b⟩
    · obtain ⟨a, b⟩ := ih hr h1
      obtain ⟨c, d⟩ := parent_dir hw (p := p) (n := n) (by rw [a]; simp)
      refine ⟨c, ?_⟩
      intro m hm
      rcases List.mem_cons.1 hm with rfl | hm
      · exact d
      · exact b m hm

theorem take_dir {w : World} (hw : Wf w) {p rel : Path} (h : kind w (p ++ rel) ≠ none) {i : Nat} (hi : i < rel.length) :
    kind w (p ++ rel.take i) = some .dir := by
  have h1 : kind w ((p ++ rel.take i) ++ rel.drop i) ≠ none := by simpa using h
  exact (prefix_dir hw _ (by intro hc; have := congrArg List.length hc; simp at this; omega) h1).1

theorem mem_names {w : World} {p : Path} {n : Name} : n ∈ names w p ↔ kind w (p ++ [n]) ≠ none := by
  rw [kind_exists (by simp), names, List.mem_filterMap]
  constructor
  · rintro ⟨q, hq, e⟩
    split at e
    · rename_i hc
      obtain ⟨h0, rfl⟩ := hc
      refine ⟨q.2, ?_⟩
      rw [List.getLast?_eq_some_getLast h0] at e
      injection e with e
      rw [← e, List.dropLast_append_getLast]
      exact hq
    · cases e
  · rintro ⟨k, hk⟩
    exact ⟨_, hk, by simp⟩

theorem names_nodup {w : World} (hw : Wf w) (p : Path) : (names w p).Nodup := by
  have h := hw.nodup
  unfold names
  generalize w.nodes = l at h
  induction l with
  | nil => simp
  | cons q l ih =>
    rw [List.map_cons, List.nodup_cons] at h
    rw [List.filterMap_cons]
    split
    · exact ih h.2
    · rename_i n hn
      rw [List.nodup_cons]
      refine ⟨?_, ih h.2⟩
      rw [List.mem_filterMap]
      rintro ⟨q', hq', e⟩
      split at hn
      · rename_i hc
        split at e
        · rename_i hc'
          refine h.1 (List.mem_map.2 ⟨q', hq', ?_⟩)
          rw [List.getLast?_eq_some_getLast hc.1] at hn
          rw [List.getLast?_eq_some_getLast hc'.1] at e
          injection hn with hn
          injection e with e
          show q'.1 = q.1
          have h1 := List.dropLast_append_getLast hc.1
          have h2 := List.dropLast_append_getLast hc'.1
          rw [hn] at h1
          rw [e] at h2
          rw [← h1, ← h2, hc.2, hc'.2]
        · cases e
      · cases hn

/-! ### Texts -/

theorem compsGo_sep (a b : Text) (cur : Name) : compsGo (a ++ 47 :: b) cur = compsGo a cur ++ comps b := by
  induction a generalizing cur with
  | nil =>
    simp only [List.nil_append, compsGo, if_true]
    split <;> rfl
  | cons c a ih =>
    rw [List.cons_append, compsGo, compsGo]
    split
    · split
      · exact ih []
      · rw [ih []]; rfl
    · exact ih _

theorem comps_sep (a b : Text) : comps (a ++ 47 :: b) = comps a ++ comps b := compsGo_sep a b []

theorem compsGo_name {n : Text} (h : 47 ∉ n) (cur : Name) : compsGo n cur = if cur ++ n = [] then [] else [cur ++ n] := by
  induction n generalizing cur with
  | nil => simp [compsGo]
  | cons c n ih =>
    rw [compsGo, if_neg (fun e => h (by rw [e]; simp)), ih (fun hc => h (by simp [hc]))]
    simp

theorem comps_name {n : Name} (h : GoodName n) : comps n = [n] := by
  rw [comps, compsGo_name h.sep, if_neg (by simpa using h.ne)]
  rfl

theorem comps_render {t : Text} : ∀ {rel : Path}, (∀ n ∈ rel, GoodName n) → comps (render t rel) = comps t ++ rel := by
  intro rel
  induction rel generalizing t with
  | nil => intro _; simp [render]
  | cons n rel ih =>
    intro h
    have e : render t (n :: rel) = render (t ++ 47 :: n) rel := by simp [render]
    rw [e, ih (fun m hm => h m (by simp [hm])), comps_sep, comps_name (h n (by simp))]
    simp

theorem render_cons (t : Text) (n : Name) (rel : Path) : render t (n :: rel) = render (t ++ 47 :: n) rel := by simp [render]

theorem render_head {t : Text} (h : t ≠ []) (rel : Path) : (render t rel).head? = t.head? := by
  cases t with
  | nil => exact absurd rfl h
  | cons c t => rfl

theorem render_ne {t : Text} (h : t ≠ []) (rel : Path) : render t rel ≠ [] := by
  cases t with
  | nil => exact absurd rfl h
  | cons c t => simp [render]

theorem render_last {t : Text} {rel : Path} (h : rel ≠ []) (hg : ∀ n ∈ rel, GoodName n) : (render t rel).getLast? ≠ some 47 := by
  obtain ⟨init, n, rfl⟩ : ∃ i n, rel = i ++ [n] := ⟨rel.dropLast, rel.getLast h, (List.dropLast_append_getLast h).symm⟩
  have hn := hg n (by simp)
  have e : render t (init ++ [n]) = (t ++ (init.map (47 :: ·)).flatten ++ [47]) ++ n := by simp [render]
  rw [e, List.getLast?_append_of_ne_nil _ hn.ne, List.getLast?_eq_some_getLast hn.ne]
  intro hc
  injection hc with hc
  exact hn.sep (hc ▸ List.getLast_mem _)

/-! ### Resolution -/

/-- One more name after a path that names a directory. -/
theorem walk1_snoc {w : World} {r1 r2 : Path → List Name → Option Path} {d : Path} (hd : kind w d = some .dir) {n : Name}
    (hn : n ≠ [46] ∧ n ≠ [46, 46]) (hk : ∀ x, kind w (d ++ [n]) ≠ some (.link x)) {f : Bool}
    (hr : ∀ cur cs, r1 cur cs = some d → r2 cur (cs ++ [n]) = some (d ++ [n])) :
    ∀ (cs : List Name) (cur : Path), walk1 w true r1 cur cs = some d → walk1 w f r2 cur (cs ++ [n]) = some (d ++ [n]) := by
  intro cs
  induction cs with
  | nil =>
    intro cur h
    simp only [walk1, Option.some.injEq] at h
    subst h
    rw [List.nil_append, walk1, if_neg (by simp [hd]), if_neg hn.1, if_neg hn.2]
    split
    · simp
    · rename_i x hx; exact absurd hx (hk x)
    · rfl
  | cons c cs ih =>
    intro cur h
    rw [walk1] at h
    rw [List.cons_append, walk1]
    by_cases h1 : kind w cur ≠ some .dir
    · rw [if_pos h1] at h; cases h
    · rw [if_neg h1] at h ⊢
      by_cases h2 : c = [46]
      · rw [if_pos h2] at h ⊢; exact ih _ h
      · rw [if_neg h2] at h ⊢
        by_cases h3 : c = [46, 46]
        · rw [if_pos h3] at h ⊢; exact ih _ h
        · rw [if_neg h3] at h ⊢
          cases hx : kind w (cur ++ [c]) with
          | none =>
            rw [hx] at h
            simp only at h
            split at h
            · injection h with h
              rw [h, hd] at hx; cases hx
            · cases h
          | some k =>
            rw [hx] at h
            cases k with
            | link x =>
              simp only [Bool.true_eq_false, and_false, if_false] at h
              simp only [List.append_eq_nil_iff, List.cons_ne_nil, and_false, false_and, if_false]
              have := hr _ _ h
              rwa [List.append_assoc] at this
            | file x => exact ih _ h
            | dir => exact ih _ h

theorem walk_snoc {w : World} {d : Path} (hd : kind w d = some .dir) {n : Name}
    (hn : n ≠ [46] ∧ n ≠ [46, 46]) (hk : ∀ x, kind w (d ++ [n]) ≠ some (.link x)) {f : Bool} :
    ∀ (l : Nat) (cs : List Name) (cur : Path), walk w true l cur cs = some d → walk w f l cur (cs ++ [n]) = some (d ++ [n])
  | 0, cs, cur, h => walk1_snoc hd hn hk (by simp) cs cur h
  | l + 1, cs, cur, h => walk1_snoc hd hn hk (fun cur cs => walk_snoc hd hn hk l cs cur) cs cur h

theorem resolve_some {w : World} {f : Bool} {t : Text} {p : Path} (h : resolve w f t = some p) :
    t ≠ [] ∧ t.length < maxPath ∧ walk w f 40 (base w t) (comps t) = some p := by
  unfold resolve at h
  split at h
  · cases h
  · rename_i hc
    rw [not_or, Nat.not_le] at hc
    exact ⟨hc.1, hc.2, h⟩

theorem resolve_eq {w : World} {f : Bool} {t : Text} (h0 : t ≠ []) (hl : t.length < maxPath) :
    resolve w f t = walk w f 40 (base w t) (comps t) := by
  unfold resolve
  rw [if_neg (by rw [not_or, Nat.not_le]; exact ⟨h0, hl⟩)]
  rfl

theorem resolve_snoc {w : World} {t : Text} {d : Path} (h : resolve w true t = some d) (hd : kind w d = some .dir) {n : Name} (hn : GoodName n)
    (hk : ∀ x, kind w (d ++ [n]) ≠ some (.link x)) (hl : (t ++ 47 :: n).length < maxPath) (f : Bool) :
    resolve w f (t ++ 47 :: n) = some (d ++ [n]) := by
  obtain ⟨h0, -, h2⟩ := resolve_some h
  rw [resolve_eq (by simp) hl, comps_sep, comps_name hn]
  have : base w (t ++ 47 :: n) = base w t := by
    cases t with
    | nil => exact absurd rfl h0
    | cons c t => rfl
  rw [this]
  exact walk_snoc hd ⟨hn.dot, hn.dotdot⟩ hk 40 _ _ h2

theorem stat_of {w : World} {t : Text} {p : Path} (h : resolve w true t = some p) (hl : t.getLast? ≠ some 47) : stat w t = kind w p := by
  unfold stat
  rw [h]
  cases hk : kind w p with
  | none => simp [hk]
  | some k => simp [hk, hl]

theorem stat_dir {w : World} {t : Text} {p : Path} (h : resolve w true t = some p) (hk : kind w p = some .dir) : stat w t = some .dir := by
  unfold stat
  rw [h]
  simp [hk]

/-- Names without links on the way. -/
theorem walk1_plain {w : World} {f : Bool} {r : Path → List Name → Option Path} : ∀ (cs : List Name) (cur : Path),
    (∀ n ∈ cs, n ≠ [46] ∧ n ≠ [46, 46]) → (∀ i, i < cs.length → kind w (cur ++ cs.take i) = some .dir) →
    (∀ x, kind w (cur ++ cs) ≠ some (.link x)) → walk1 w f r cur cs = some (cur ++ cs) := by
  intro cs
  induction cs with
  | nil => intro cur _ _ _; simp [walk1]
  | cons c cs ih =>
    intro cur h1 h2 h3
    have hc := h1 c (by simp)
    have h0 : kind w cur = some .dir := by simpa using h2 0 (by simp)
    rw [walk1, if_neg (by simp [h0]), if_neg hc.1, if_neg hc.2]
    by_cases hcs : cs = []
    · subst hcs
      cases hx : kind w (cur ++ [c]) with
      | none => simp
      | some k =>
        cases k with
        | link x => exact absurd hx (h3 x)
        | file x => simp [walk1]
        | dir => simp [walk1]
    · have hp := List.length_pos_iff.2 hcs
      have h4 : kind w (cur ++ [c]) = some .dir := by simpa using h2 1 (by simp; omega)
      rw [h4]
      have := ih (cur ++ [c]) (fun n hn => h1 n (by simp [hn])) (fun i hi => by simpa using h2 (i + 1) (by simpa using hi)) (by simpa using h3)
      simpa using this

theorem walk_plain {w : World} {f : Bool} (l : Nat) (cs : List Name) (cur : Path)
    (h1 : ∀ n ∈ cs, n ≠ [46] ∧ n ≠ [46, 46]) (h2 : ∀ i, i < cs.length → kind w (cur ++ cs.take i) = some .dir)
    (h3 : ∀ x, kind w (cur ++ cs) ≠ some (.link x)) : walk w f l cur cs = some (cur ++ cs) := by
  cases l with
  | zero => exact walk1_plain cs cur h1 h2 h3
  | succ l => exact walk1_plain cs cur h1 h2 h3

/-- Names without links on the way, whether they exist or not: all but the last must be directories. -/
theorem walk1_nolink {w : World} {f : Bool} {r : Path → List Name → Option Path} : ∀ (cs : List Name) (cur : Path),
    (∀ n ∈ cs, n ≠ [46] ∧ n ≠ [46, 46]) → (∀ i x, kind w (cur ++ cs.take i) ≠ some (.link x)) →
    ((∀ i, i < cs.length → kind w (cur ++ cs.take i) = some .dir) → walk1 w f r cur cs = some (cur ++ cs)) ∧
    ((∃ i, i < cs.length ∧ kind w (cur ++ cs.take i) ≠ some .dir) → walk1 w f r cur cs = none) := by
  intro cs
  induction cs with
  | nil => intro cur _ _; simp [walk1]
  | cons c cs ih =>
    intro cur h1 h2
    have hc := h1 c (by simp)
    refine ⟨fun h3 => walk1_plain _ _ h1 h3 fun x => by simpa using h2 (c :: cs).length x, ?_⟩
    rintro ⟨i, hi, hk⟩
    rw [walk1]
    by_cases hcur : kind w cur = some .dir
    · rw [if_neg (by simp [hcur]), if_neg hc.1, if_neg hc.2]
      cases i with
      | zero => simp [hcur] at hk
      | succ i =>
        have hi' : i < cs.length := by simpa using hi
        have hcs : cs ≠ [] := by rintro rfl; simp at hi'
        have ih' := (ih (cur ++ [c]) (fun n hn => h1 n (by simp [hn])) (fun j x => by simpa using h2 (j + 1) x)).2
          ⟨i, hi', by simpa using hk⟩
        have h2' := h2 1
        cases hk1 : kind w (cur ++ [c]) with
        | none => simp [hcs]
        | some k =>
          cases k with
          | link x => exact absurd hk1 (by simpa using h2' x)
          | dir => exact ih'
          | file d => exact ih'
    · rw [if_pos hcur]

theorem walk_nolink {w : World} {f : Bool} (l : Nat) (cs : List Name) (cur : Path)
    (h1 : ∀ n ∈ cs, n ≠ [46] ∧ n ≠ [46, 46]) (h2 : ∀ i x, kind w (cur ++ cs.take i) ≠ some (.link x))
    (h3 : ∃ i, i < cs.length ∧ kind w (cur ++ cs.take i) ≠ some .dir) : walk w f l cur cs = none := by
  cases l with
  | zero => exact (walk1_nolink cs cur h1 h2).2 h3
  | succ l => exact (walk1_nolink cs cur h1 h2).2 h3

end Vita.Fs
