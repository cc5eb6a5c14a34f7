import Verif.Spec.TreeMore
import Verif.Props.FileTree
/-!
# Property C131: whole chains and branches
-/

namespace Vita
open Out Spec Fs
seal wadd wsub wmul

/-- Only the nodes are different. -/
def SameRights (w w' : World) : Prop := w' = { w with nodes := w'.nodes }

theorem SameRights.trans {a b c : World} (h : SameRights a b) (h' : SameRights b c) : SameRights a c := by
  unfold SameRights at *
  rw [h', h]

theorem SameRights.free {w w' : World} (hw : Free w) (h : SameRights w w') (hn : (w'.nodes.map (·.1)).Nodup) (h0 : ∀ x ∈ w'.nodes, x.1 ≠ [])
    (hk : ∀ p, p ≠ [] → kind w' p ≠ none → kind w' p.dropLast = some .dir ∧ ∀ n, p.getLast? = some n → GoodName n)
    (hl : ∀ q x, kind w' q ≠ some (.link x)) : Free w' := by
  unfold SameRights at h
  refine ⟨wf_of_kind hn h0 hk, hl, ?_, ?_, ?_, ?_, ?_⟩ <;> rw [h]
  · exact hw.readable
  · exact hw.mayCreate
  · exact hw.mayRemove
  · exact hw.mayWrite
  · exact hw.room

/-! ### Making a chain -/

theorem mkdirs_nodes : ∀ (ts : List Text) (w : World), (w.nodes.map (·.1)).Nodup → (∀ x ∈ w.nodes, x.1 ≠ []) →
    SameRights w (mkdirs w ts) ∧ ((mkdirs w ts).nodes.map (·.1)).Nodup ∧ ∀ x ∈ (mkdirs w ts).nodes, x.1 ≠ []
  | [], w, hn, h0 => ⟨rfl, hn, h0⟩
  | t :: ts, w, hn, h0 => by
    have one : SameRights w (Path.mkdir w t).1 ∧ ((Path.mkdir w t).1.nodes.map (·.1)).Nodup ∧ ∀ x ∈ (Path.mkdir w t).1.nodes, x.1 ≠ [] := by
      unfold Path.mkdir
      split
      · exact ⟨rfl, hn, h0⟩
      · cases e : Fs.mkdir w t with
        | none => exact ⟨rfl, hn, h0⟩
        | some w' =>
          unfold Fs.mkdir at e
          cases hr : resolve w false t with
          | none => rw [hr] at e; simp at e
          | some p =>
            rw [hr] at e
            simp only [Option.bind_eq_bind, Option.bind_some] at e
            split at e
            · rename_i hc
              injection e with e
              subst e
              have hp0 : p ≠ [] := by rintro rfl; rw [kind_nil] at hc; cases hc.1
              refine ⟨rfl, ?_, ?_⟩
              · simp only [List.map_append, List.map_cons, List.map_nil]
                rw [List.nodup_append]
                refine ⟨hn, by simp, ?_⟩
                rintro a ha b hb rfl
                simp only [List.mem_cons, List.not_mem_nil, or_false] at hb
                obtain ⟨x, hx, e⟩ := List.mem_map.1 ha
                exact (kind_exists hp0).2 ⟨x.2, by rw [← hb, ← e]; exact hx⟩ hc.1
              · intro x hx
                simp only [List.mem_append, List.mem_cons, List.not_mem_nil, or_false] at hx
                rcases hx with hx | rfl
                · exact h0 x hx
                · exact hp0
            · cases e
    obtain ⟨a, b, c⟩ := mkdirs_nodes ts _ one.2.1 one.2.2
    exact ⟨one.1.trans a, b, c⟩

theorem makeable_free {w : World} (hw : Free w) (q : Fs.Path) : Makeable w q ↔ ∀ r, r <+: q → kind w r = none ∨ kind w r = some .dir := by
  refine forall_congr' fun r => imp_congr_right fun _ => ?_
  simp [hw.mayCreate, or_comm]

theorem pathText_plain (w : World) {t : Text} (ht : PathText t) : Plain w t (comps t) := by
  refine ⟨fun h => ?_, by simp [base, ht.root], fun n h => ⟨(ht.good n h).dot, (ht.good n h).dotdot⟩⟩
  have := ht.root
  rw [h] at this
  cases this

theorem pathText_cstr {t : Text} (ht : PathText t) : CStr (zstr t) t :=
  cstr_zstr ht.nul (by have := ht.short; unfold maxPath at this; omega)

theorem okOr_map {E : Env} {B : Nat} {α β : Type} {o : Out α} {P : α → Prop} {f : α → β} {Q : β → Prop} (h : OkOr E B o P) (hf : ∀ a, P a → Q (f a)) :
    OkOr E B (o >>= fun a => .ok (f a)) Q := h.bind (fun a ha => OkOr.ok (hf a ha)) (Nat.le_refl _)

theorem prefix_dropLast {p q : Fs.Path} (h : p <+: q) : p.dropLast <+: q := (List.dropLast_prefix p).trans h

theorem OkOr.and {E : Env} {B B' : Nat} {α : Type} {o : Out α} {P Q : α → Prop} (h : OkOr E B o P) (h' : OkOr E B' o Q) : OkOr E B o fun a => P a ∧ Q a := by
  rcases h with ⟨a, e, h⟩ | h
  · rcases h' with ⟨b, e', h'⟩ | h'
    · rw [e] at e'
      injection e' with e'
      subst e'
      exact .inl ⟨a, e, h, h'⟩
    · rw [e] at h'
      cases h'.1
  · exact .inr h

theorem joinWith_two_seps : ∀ X : List Text, (joinWith [47] (X ++ [[], []])).getLast? = some 47
  | [] => by decide
  | a :: X => by
    have ih := joinWith_two_seps X
    obtain ⟨b, l, e⟩ : ∃ b l, X ++ [[], []] = b :: l := List.exists_cons_of_ne_nil (by simp)
    rw [e] at ih
    rw [List.cons_append, e, joinWith, List.getLast?_append, ih]
    rfl

theorem pathText_pieces {t : Text} (ht : PathText t) : ¬ [[], []] <:+ pieces t [47] := by
  rintro ⟨X, e⟩
  have h := joinWith_two_seps X
  rw [e, joinWith_pieces (by simp) _ _ (Nat.le_refl _)] at h
  exact ht.last h

theorem match_mkdirs {E : Env} {w : World} (hw : Free w) {t : Text} (ht : PathText t) (hl : t.length + 1 < maxPath) :
    OkOr E (maxPath + 312) (callMore E w (.mkdirs t)) fun r => Free r.1 ∧ Tree.Step (kind w) (kind r.1) r.2 (.mkdirs t) := by
  have hz := pathText_cstr ht
  have hP := pathText_plain w ht
  have hsep : 47 ∈ t := List.mem_of_mem_head? ht.root
  have he := pathText_pieces ht
  have h2 := C61_exact (E := E) (k := t.length + 1) hw.wf hz (by simp [base, ht.root, kind_nil]) hP hsep he hl (fun q x _ => hw.noLink q x) (by omega)
  have h1 : OkOr E (t.length + 57) (Path.mkdirParents E (t.length + 1) w (zstr t)) fun r => ∃ ts, r.1 = mkdirs w ts := by
    by_cases hn : stat w t = none
    · refine (C61_effect (E := E) (k := t.length + 1) hz hn hsep he (by omega)).mono ?_
      rintro r rfl
      exact ⟨_, rfl⟩
    · rw [C61_existing hz hn]
      exact OkOr.ok ⟨[], rfl⟩
  refine okOr_map ((h1.and h2).le (by omega)) ?_
  rintro ⟨w', b⟩ ⟨⟨ts, e⟩, rfl, k1, k2⟩
  simp only at e k1 k2
  simp only [makeable_free hw] at k1 k2
  have hk : kind w' = Tree.chain (kind w) (comps t) := by
    funext q
    unfold Tree.chain
    split
    · rename_i h; exact k1 q h.1 h.2
    · rename_i h; exact k2 q h
  obtain ⟨a, b, c⟩ := mkdirs_nodes ts w hw.wf.nodup (fun x hx => wf_ne hw.wf hx)
  rw [← e] at a b c
  refine ⟨a.free hw b c ?_ ?_, hk, rfl⟩
  · intro p hp h
    by_cases hc : p <+: comps t ∧ ∀ r, r <+: p → kind w r = none ∨ kind w r = some .dir
    · refine ⟨k1 _ (prefix_dropLast hc.1) fun r hr => hc.2 r (hr.trans (List.dropLast_prefix p)), fun n hn => ?_⟩
      exact ht.good n (hc.1.subset (List.mem_of_getLast? hn))
    · rw [k2 p hc] at h
      obtain ⟨h1, h2⟩ := wf_step hw.wf hp h
      refine ⟨?_, h2⟩
      by_cases hc' : p.dropLast <+: comps t ∧ ∀ r, r <+: p.dropLast → kind w r = none ∨ kind w r = some .dir
      · exact k1 _ hc'.1 hc'.2
      · rw [k2 _ hc', h1]
  · intro q x
    by_cases hc : q <+: comps t ∧ ∀ r, r <+: q → kind w r = none ∨ kind w r = some .dir
    · rw [k1 q hc.1 hc.2]; simp
    · rw [k2 q hc]; exact hw.noLink q x

/-! ### Removing a branch -/

theorem shrink_rmdir (w : World) (t : Text) : SameRights w (Path.rmdir w t).1 ∧ (Path.rmdir w t).1.nodes.Sublist w.nodes := by
  unfold Path.rmdir
  split
  · exact ⟨rfl, List.Sublist.refl _⟩
  · cases e : Fs.rmdir w t with
    | none => exact ⟨rfl, List.Sublist.refl _⟩
    | some w' =>
      unfold Fs.rmdir at e
      cases hr : resolve w false t with
      | none => rw [hr] at e; simp at e
      | some p =>
        rw [hr] at e
        simp only [Option.bind_eq_bind, Option.bind_some] at e
        split at e
        · injection e with e
          subst e
          exact ⟨rfl, List.filter_sublist⟩
        · cases e

theorem shrink_remove (w : World) (t : Text) : SameRights w (Path.remove w t).1 ∧ (Path.remove w t).1.nodes.Sublist w.nodes := by
  unfold Path.remove
  split
  · exact ⟨rfl, List.Sublist.refl _⟩
  · cases e : Fs.remove w t with
    | none => exact ⟨rfl, List.Sublist.refl _⟩
    | some w' =>
      unfold Fs.remove Fs.rmdir at e
      cases hr : resolve w false t with
      | none => rw [hr] at e; simp at e
      | some p =>
        rw [hr] at e
        simp only [Option.bind_eq_bind, Option.bind_some] at e
        cases hk : kind w p with
        | none => rw [hk] at e; simp at e
        | some k =>
          rw [hk] at e
          simp only [Option.bind_some] at e
          split at e
          all_goals
            split at e
            · injection e with e
              subst e
              exact ⟨rfl, List.filter_sublist⟩
            · cases e

theorem shrink_loop {z : Text} : ∀ (l : List Arr) (w : World) (r : World × Bool), Path.rmdirLoop z l w = .ok r →
    SameRights w r.1 ∧ r.1.nodes.Sublist w.nodes
  | [], w, r, h => by
    simp only [Path.rmdirLoop, Out.ok.injEq] at h
    subst h
    exact shrink_rmdir w z
  | p :: ps, w, r, h => by
    simp only [Path.rmdirLoop, bind_eq_ok] at h
    obtain ⟨t, -, h⟩ := h
    have one : SameRights w (if Path.isDir w t then Path.rmdir w t else Path.remove w t).1 ∧
        (if Path.isDir w t then Path.rmdir w t else Path.remove w t).1.nodes.Sublist w.nodes := by
      split
      · exact shrink_rmdir w t
      · exact shrink_remove w t
    generalize (if Path.isDir w t then Path.rmdir w t else Path.remove w t) = s at *
    split at h
    · obtain ⟨a, b⟩ := shrink_loop ps _ _ h
      exact ⟨one.1.trans a, b.trans one.2⟩
    · injection h with h
      subst h
      exact one

theorem shrink_recurse {E : Env} {k : Nat} {w : World} {z : Mem} {r : World × Bool} (h : Path.rmdirRecurse E k w z = .ok r) :
    SameRights w r.1 ∧ r.1.nodes.Sublist w.nodes := by
  simp only [Path.rmdirRecurse, bind_eq_ok] at h
  obtain ⟨t, -, h⟩ := h
  split at h
  · injection h with h
    subst h
    exact ⟨rfl, List.Sublist.refl _⟩
  · simp only [bind_eq_ok] at h
    obtain ⟨dl, -, h⟩ := h
    split at h
    · injection h with h
      rw [← h]
      exact shrink_rmdir w t
    · injection h with h
      rw [← h]
      exact shrink_rmdir w t
    · exact shrink_loop _ _ _ h

theorem readdir_notDir {w : World} {t : Text} (h : stat w t ≠ some .dir) : readdir w t = none := by
  unfold readdir
  cases hr : resolve w true t with
  | none => rfl
  | some p =>
    simp only [Option.bind_eq_bind, Option.bind_some]
    rw [if_neg]
    rintro ⟨hk, -⟩
    exact h (stat_dir hr hk)

theorem listAll_none {E : Env} {w : World} {z : Mem} {t : Text} (hz : CStr z t) (h : stat w t ≠ some .dir) (ign : Bool) (k : Nat) (pl : List Arr) :
    Path.dirListRecurse E w ign (k + 1) pl z = .ok none := by
  unfold Path.dirListRecurse
  rw [hz.text, bind_ok]
  split
  · rfl
  · rw [readdir_notDir h]

theorem le_foldr_max {n : Nat} : ∀ {l : List Nat}, n ∈ l → n ≤ l.foldr max 0
  | x :: l, h => by
    rw [List.foldr_cons]
    rcases List.mem_cons.1 h with rfl | h
    · exact Nat.le_max_left _ _
    · exact Nat.le_trans (le_foldr_max h) (Nat.le_max_right _ _)

theorem le_depth (w : World) : ∀ q ∈ w.nodes, q.1.length ≤ depth w := fun q hq => le_foldr_max (List.mem_map.2 ⟨q, hq, rfl⟩)

theorem listable_free {w : World} (hw : Free w) {t : Text} (h : Tree.Short (kind w) t) : Listable w t (comps t) :=
  ⟨fun _ x => hw.noLink _ x, fun _ _ => hw.readable _, h⟩

theorem free_cut {w w' : World} (hw : Free w) (h : SameRights w w') (hs : w'.nodes.Sublist w.nodes) {p : Fs.Path}
    (hk : kind w' = Tree.cut (kind w) p) : Free w' := by
  refine h.free hw (hw.wf.nodup.sublist (hs.map _)) (fun x hx => wf_ne hw.wf (hs.subset hx)) (fun q hq hc => ?_) (fun q x => ?_)
  · rw [hk] at hc ⊢
    unfold Tree.cut at hc ⊢
    split at hc
    · exact absurd rfl hc
    · rename_i hpq
      obtain ⟨a, b⟩ := wf_step hw.wf hq hc
      rw [if_neg (fun g => hpq (g.trans (List.dropLast_prefix q)))]
      exact ⟨a, b⟩
  · rw [hk]
    unfold Tree.cut
    split
    · simp
    · exact hw.noLink q x

theorem match_rmtree {E : Env} {w : World} (hw : Free w) {t : Text} (ht : PathText t) (hf : Tree.Short (kind w) t) :
    OkOr E (maxPath + 312) (callMore E w (.rmtree t)) fun r => Free r.1 ∧ Tree.Step (kind w) (kind r.1) r.2 (.rmtree t) := by
  have hz := pathText_cstr ht
  have hst := pathText_stat hw ht
  by_cases hd : kind w (comps t) = some .dir
  · have h1 := C63_rmdir_recurse_partial (E := E) hw.wf hz (pathText_plain w ht) hd ht.some (listable_free hw hf) (le_depth w)
    have h2 : OkOr E (maxPath + 56) (Path.rmdirRecurse E (depth w + 1) w (zstr t)) fun r => SameRights w r.1 ∧ r.1.nodes.Sublist w.nodes := by
      rcases h1 with ⟨a, e, -⟩ | h
      · exact .inl ⟨a, e, shrink_recurse e⟩
      · exact .inr h
    refine okOr_map ((h1.and h2).le (by omega)) ?_
    rintro ⟨w', b⟩ ⟨⟨k1, -, -, k2⟩, s1, s2⟩
    obtain ⟨rfl, k3⟩ := k2 fun _ => hw.mayRemove _
    have hk : kind w' = Tree.cut (kind w) (comps t) := by
      funext q
      unfold Tree.cut
      split
      · rename_i h; exact k3 q h
      · rename_i h; exact k1 q h
    refine ⟨free_cut hw s1 s2 hk, ?_⟩
    simp only [Tree.Step, if_pos hd]
    exact ⟨hk, trivial⟩
  · have e : Path.rmdirRecurse E (depth w + 1) w (zstr t) = .ok (w, false) := by
      unfold Path.rmdirRecurse
      rw [hz.text, bind_ok]
      split
      · rfl
      · rename_i hx
        rw [listAll_none hz (by rw [hst]; exact hd), bind_ok]
        simp only [Path.rmdir, if_neg hx, fs_rmdir hw ht, if_neg (fun g => hd (And.left g))]
    have : callMore E w (.rmtree t) = .ok (w, .answer (false, [])) := by
      show (Path.rmdirRecurse E (depth w + 1) w (zstr t) >>= _) = _
      rw [e, bind_ok]
    rw [this]
    refine OkOr.ok ⟨hw, ?_⟩
    simp only [Tree.Step, if_neg hd]
    exact ⟨trivial, trivial⟩

/-! ### Listing -/

theorem texts_ok : ∀ {l : List Arr} {ts : List Text}, List.Forall₂ IsStr l ts → texts l = .ok ts
  | _, _, .nil => rfl
  | _, _, .cons h hs => by rw [texts, Str.z, h.text, bind_ok, texts_ok hs, bind_ok]

theorem match_list {E : Env} {w : World} (hw : Free w) {t : Text} (ht : PathText t) (ign : Bool) :
    OkOr E (maxPath + 312) (callMore E w (.list ign t)) fun r => Free r.1 ∧ Tree.Step (kind w) (kind r.1) r.2 (.list ign t) := by
  have hz := pathText_cstr ht
  have start : callMore E w (.list ign t) = (Path.dirList E w (zstr t) ign >>= fun l => textsOf l >>= fun ts => .ok (w, .listing ts)) := rfl
  rw [start]
  by_cases hd : kind w (comps t) = some .dir
  · have hr := pathText_resolve hw ht true
    rw [if_pos (dropLast_dir hw.wf ht.some (by rw [hd]; simp))] at hr
    refine (C62_dir_list (E := E) hw.wf hz hr hd (hw.readable _) ign).bind ?_ (by omega)
    rintro r ⟨l, ns, rfl, hl, h1, h2⟩
    rw [textsOf, texts_ok hl, bind_ok, bind_ok]
    refine OkOr.ok ⟨hw, ?_⟩
    simp only [Tree.Step, if_pos hd]
    exact ⟨trivial, ns, rfl, h1, h2⟩
  · rw [C62_dir_list_none hz (by rw [pathText_stat hw ht]; exact hd), bind_ok, textsOf, bind_ok]
    refine OkOr.ok ⟨hw, ?_⟩
    simp only [Tree.Step, if_neg hd]
    exact ⟨trivial, trivial⟩

theorem match_listAll {E : Env} {w : World} (hw : Free w) {t : Text} (ht : PathText t) (hf : Tree.Short (kind w) t) (ign : Bool) :
    OkOr E (maxPath + 312) (callMore E w (.listAll ign t)) fun r => Free r.1 ∧ Tree.Step (kind w) (kind r.1) r.2 (.listAll ign t) := by
  have hz := pathText_cstr ht
  have start : callMore E w (.listAll ign t) =
      (Path.dirListRecurse E w ign (depth w + 1) [] (zstr t) >>= fun l => textsOf l >>= fun ts => .ok (w, .listing ts)) := rfl
  rw [start]
  by_cases hd : kind w (comps t) = some .dir
  · have hr := pathText_resolve hw ht true
    rw [if_pos (dropLast_dir hw.wf ht.some (by rw [hd]; simp))] at hr
    refine (C62_dir_list_recurse (E := E) hw.wf hz hr hd (listable_free hw hf) ign (le_depth w) []).bind ?_ (by omega)
    rintro r ⟨l, L, rfl, hl, hL⟩
    rw [List.nil_append, textsOf, texts_ok hl, bind_ok, bind_ok]
    refine OkOr.ok ⟨hw, ?_⟩
    simp only [Tree.Step, if_pos hd]
    exact ⟨trivial, L, rfl, hL.nodup, hL.mem, hL.order⟩
  · rw [listAll_none hz (by rw [pathText_stat hw ht]; exact hd), bind_ok, textsOf, bind_ok]
    refine OkOr.ok ⟨hw, ?_⟩
    simp only [Tree.Step, if_neg hd]
    exact ⟨trivial, trivial⟩

theorem match_load {E : Env} {w : World} (hw : Free w) {t : Text} (ht : PathText t) {B : Nat} (hB : maxPath + 312 ≤ B) (hf : Tree.Fits B (kind w) (.load t)) :
    OkOr E B (callMore E w (.load t)) fun r => Free r.1 ∧ Tree.Step (kind w) (kind r.1) r.2 (.load t) := by
  have hz := pathText_cstr ht
  have hr := pathText_resolve hw ht true
  have hst := pathText_stat hw ht
  have start : callMore E w (.load t) = (FileIo.read E w (zstr t) >>= fun o => .ok (w, .contents (o.map fun v => v.mem.take v.len))) := rfl
  rw [start]
  cases hk : kind w (comps t) with
  | none =>
    rw [hk] at hst
    rw [C64_read_missing hz hst, bind_ok]
    exact OkOr.ok ⟨hw, by simp [Tree.Step, hk]⟩
  | some k =>
    have hd := dropLast_dir hw.wf ht.some (by rw [hk]; simp)
    rw [if_pos hd] at hr
    cases k with
    | link x => exact absurd hk (hw.noLink _ x)
    | file d =>
      obtain ⟨h0, h1, h2⟩ := hf d hk
      refine ((C64_read_partial (E := E) hz hr hk ht.last (hw.readable _) (.inl h0) h1).le h2).bind ?_ (Nat.le_refl _)
      rintro r ⟨v, rfl, hv, -⟩
      refine OkOr.ok ⟨hw, ?_⟩
      have e : v.mem.take v.len = d.map some := by
        rw [hv.mem, hv.len]
        simp
      simp [Tree.Step, hk, e]
    | dir =>
      rw [hk] at hst
      have ho : openR w t = some [] := by simp [openR, hr, hst, hw.readable, dataAt_eq, hk, dataOf]
      have hs : Path.fileSize w t = 4096 := by simp [Path.fileSize, hst]
      have hread : OkOr E (4096 + 56) (FileIo.read E w (zstr t)) fun r => r = none := by
        unfold FileIo.read
        rw [hz.text, bind_ok, ho]
        simp only [hs]
        rw [if_neg (by decide)]
        refine (createLen_okOr' (E := E) (n := 4096) (.inl (by decide)) (by decide)).bind ?_ (Nat.le_refl _)
        rintro s ⟨h, -⟩
        have hl : s.len = 4096 := by rw [h.len, List.length_replicate]
        simp only [FileIo.fread, List.take_nil, List.map_nil, List.length_nil, Nat.min_zero]
        rw [writeN_ok (by simp), bind_ok, bind_ok, if_pos (by simp [hl])]
        exact OkOr.ok rfl
      refine (hread.le (by unfold maxPath at hB; omega)).bind ?_ (Nat.le_refl _)
      rintro r rfl
      exact OkOr.ok ⟨hw, by simp [Tree.Step, hk]⟩

theorem match_callMore {E : Env} {w : World} (hw : Free w) {B : Nat} (hB : maxPath + 312 ≤ B) {c : CmdMore} (hc : c.Ok) (hf : Tree.Fits B (kind w) c) :
    OkOr E B (callMore E w c) fun r => Free r.1 ∧ Tree.Step (kind w) (kind r.1) r.2 c := by
  cases c with
  | one c =>
    obtain ⟨r, e, h1, h2, h3⟩ := match_call (E := E) hw hc
    have : callMore E w (.one c) = .ok (r.1, .answer r.2) := by
      show (call E w c >>= _) = _
      rw [e, bind_ok]
    rw [this]
    exact OkOr.ok ⟨h1, h2, by rw [h3]⟩
  | mkdirs t => exact (match_mkdirs hw hc.1 hc.2).le hB
  | rmtree t => exact (match_rmtree hw hc hf).le hB
  | list ign t => exact (match_list hw hc ign).le hB
  | listAll ign t => exact (match_listAll hw hc hf ign).le hB
  | load t => exact match_load hw hc hB hf

/-- **C131** Every program with these calls: unless memory is refused, it ends, and the file system and the replies are those that the calls have for a tree. -/
theorem C131_program (E : Env) {B : Nat} (hB : maxPath + 312 ≤ B) : ∀ (cs : List CmdMore) (w : World), Free w → (∀ c ∈ cs, c.Ok) → Tree.AllFit B (kind w) cs →
    OkOr E B (callsMore E w cs) fun r => Free r.1 ∧ Tree.Runs (kind w) cs (kind r.1) r.2
  | [], w, hw, _, _ => OkOr.ok ⟨hw, .nil _⟩
  | c :: cs, w, hw, hc, hf => by
    rw [callsMore]
    refine (match_callMore (E := E) hw hB (hc c (by simp)) hf.1).bind ?_ (Nat.le_refl _)
    rintro ⟨w1, r1⟩ ⟨h1, h2⟩
    refine (C131_program E hB cs w1 h1 (fun d hd => hc d (by simp [hd])) (hf.2 _ _ h2)).bind ?_ (Nat.le_refl _)
    rintro ⟨w2, rs⟩ ⟨h3, h4⟩
    exact OkOr.ok ⟨h3, .cons h2 h4⟩

/-- The entry `p` is not concerned by the call: it is neither at nor below a path that is changed, nor on a chain that is made. -/
def Fs.CmdMore.Spares (p : Fs.Path) : CmdMore → Prop
  | .one c => ∀ t ∈ c.changes, ¬ comps t <+: p
  | .mkdirs t => ¬ p <+: comps t
  | .rmtree t => ¬ comps t <+: p
  | .list _ _ | .listAll _ _ | .load _ => True

/-- **C131** Everything else is left alone. -/
theorem C131_frame {p : Fs.Path} {T T' : Tree} {cs : List CmdMore} {rs : List Reply} (h : Tree.Runs T cs T' rs) (hc : ∀ c ∈ cs, c.Spares p) : T' p = T p := by
  induction h with
  | nil => rfl
  | @cons T T1 T2 c r cs rs h1 h2 ih =>
    rw [ih fun d hd => hc d (by simp [hd])]
    have hs := hc c (by simp)
    cases c with
    | one c =>
      rw [h1.1]
      have := C129_frame p [c] T (by simpa [CmdMore.Spares] using hs)
      simpa [Tree.run] using this
    | mkdirs t =>
      rw [h1.1, Tree.chain, if_neg (fun g => hs g.1)]
    | rmtree t =>
      simp only [Tree.Step] at h1
      split at h1
      · rw [h1.1, Tree.cut, if_neg hs]
      · rw [h1.1]
    | list => rw [h1.1]
    | listAll => rw [h1.1]
    | load => rw [h1.1]

/-- **C131** Making a chain and removing it again from where it began restores the file system. -/
theorem C131_make_remove (E : Env) {w : World} (hw : Free w) {t u : Text} (ht : PathText t) (hl : t.length + 1 < maxPath) (hu : PathText u)
    (hut : comps u <+: comps t) (hn : kind w (comps u) = none) (hd : kind w (comps u).dropLast = some .dir)
    (hs : ∀ p, comps u ++ p <+: comps t → (render u p).length < maxPath) :
    OkOr E (maxPath + 312) (callsMore E w [.mkdirs t, .rmtree u]) fun r => r.2 = [.answer (true, []), .answer (true, [])] ∧ kind r.1 = kind w := by
  have below : ∀ q, comps u <+: q → kind w q = none := by
    rintro q ⟨s, rfl⟩
    by_contra hc
    by_cases h0 : s = []
    · subst h0; rw [List.append_nil] at hc; exact hc hn
    · have := (prefix_dir hw.wf s (p := comps u) h0 hc).1
      rw [hn] at this
      cases this
  have above : ∀ r, r <+: comps u → kind w r = none ∨ kind w r = some .dir := by
    intro r hr
    by_cases e : r = comps u
    · rw [e]; exact .inl hn
    · refine .inr (prefix_of_dir hw.wf hd ?_)
      rw [← List.dropLast_append_getLast hu.some, List.prefix_concat_iff] at hr
      rcases hr with hr | hr
      · rw [List.dropLast_append_getLast] at hr
        exact absurd hr e
      · exact hr
  have made : ∀ q, q <+: comps t → ∀ r, r <+: q → kind w r = none ∨ kind w r = some .dir := by
    intro q hq r hr
    rcases List.prefix_or_prefix_of_prefix (hr.trans hq) hut with h | h
    · exact above r h
    · exact .inl (below r h)
  have hch : Tree.chain (kind w) (comps t) (comps u) = some .dir := by
    rw [Tree.chain, if_pos ⟨hut, made _ hut⟩]
  refine (C131_program E (Nat.le_refl _) _ w hw ?_ ?_).mono ?_
  · intro c hc
    simp only [List.mem_cons, List.not_mem_nil, or_false] at hc
    rcases hc with rfl | rfl
    · exact ⟨ht, hl⟩
    · exact hu
  · refine ⟨trivial, fun T' r h => ⟨?_, fun _ _ _ => trivial⟩⟩
    intro p hp
    rw [h.1] at hp
    unfold Tree.chain at hp
    split at hp
    · rename_i hc; exact hs p hc.1
    · exact absurd (below _ (List.prefix_append _ _)) hp
  · rintro ⟨w', rs⟩ ⟨-, h⟩
    cases h with
    | cons h1 h2 =>
      cases h2 with
      | cons h2 h3 =>
        cases h3
        obtain ⟨rfl, rfl⟩ := h1
        simp only [Tree.Step, if_pos hch] at h2
        obtain ⟨h2, rfl⟩ := h2
        refine ⟨rfl, ?_⟩
        simp only
        rw [h2]
        funext q
        unfold Tree.cut
        split
        · rename_i hq; rw [below q hq]
        · rename_i hq
          unfold Tree.chain
          split
          · rename_i hc
            rcases List.prefix_or_prefix_of_prefix hc.1 hut with h | h
            · refine (prefix_of_dir hw.wf hd ?_).symm
              rw [← List.dropLast_append_getLast hu.some, List.prefix_concat_iff] at h
              rcases h with h | h
              · rw [List.dropLast_append_getLast] at h
                exact absurd (h ▸ List.prefix_refl _) hq
              · exact h
            · exact absurd h hq
          · rfl

/-- **C131** After a branch has been removed, listing it gives NULL, and exactly the branch is gone. -/
theorem C131_remove_list (E : Env) {w : World} (hw : Free w) {t : Text} (ht : PathText t) (hs : Tree.Short (kind w) t) (hd : kind w (comps t) = some .dir)
    (ign : Bool) :
    OkOr E (maxPath + 312) (callsMore E w [.rmtree t, .list ign t, .listAll ign t]) fun r =>
      r.2 = [.answer (true, []), .listing none, .listing none] ∧ kind r.1 = Tree.cut (kind w) (comps t) := by
  have hcut : Tree.cut (kind w) (comps t) (comps t) ≠ some .dir := by simp [Tree.cut]
  refine (C131_program E (Nat.le_refl _) _ w hw ?_ ?_).mono ?_
  · intro c hc
    simp only [List.mem_cons, List.not_mem_nil, or_false] at hc
    rcases hc with rfl | rfl | rfl <;> exact ht
  · refine ⟨hs, fun T1 r1 h => ⟨trivial, fun T2 r2 h' => ⟨?_, fun _ _ _ => trivial⟩⟩⟩
    simp only [Tree.Step, if_pos hd] at h
    rw [h'.1, h.1]
    intro p hp
    simp [Tree.cut] at hp
  · rintro ⟨w', rs⟩ ⟨-, h⟩
    cases h with
    | cons h1 h2 =>
      cases h2 with
      | cons h2 h3 =>
        cases h3 with
        | cons h3 h4 =>
          cases h4
          simp only [Tree.Step, if_pos hd] at h1
          obtain ⟨rfl, rfl⟩ := h1
          simp only [Tree.Step, if_neg hcut] at h2
          obtain ⟨rfl, rfl⟩ := h2
          simp only [Tree.Step, if_neg hcut] at h3
          obtain ⟨h3, rfl⟩ := h3
          exact ⟨rfl, h3⟩

/-- **C131** A text written into a file of a new directory: after the branch above it is renamed, `vt_file_read` gives the text under the new name, and NULL under the
old one. -/
theorem C131_move_load (E : Env) {w : World} (hw : Free w) {t u f g s : Text} (ht : PathText t) (hu : PathText u) (hf : PathText f) (hg : PathText g) {n : Name}
    (hfn : comps f = comps t ++ [n]) (hgn : comps g = comps u ++ [n]) (hd : kind w (comps t) = some .dir) (hn : kind w (comps f) = none)
    (hu0 : kind w (comps u) = none) (hud : kind w (comps u).dropLast = some .dir) (htu : ¬ comps t <+: comps u) (hs0 : s ≠ []) (hs : 0 ∉ s) (hl : s.length < 2 ^ 31) :
    OkOr E (max (maxPath + 312) (s.length + 56)) (callsMore E w [.one (.write false false f s), .one (.rename t u), .load g, .load f]) fun r =>
      r.2 = [.answer (true, []), .answer (true, []), .contents (some (s.map some)), .contents none] := by
  have hqF : comps u ≠ comps f := fun e => htu (by rw [e, hfn]; exact List.prefix_append _ _)
  have hpF : comps t ≠ comps f := fun e => by rw [e, hn] at hd; cases hd
  have hdF : (comps u).dropLast ≠ comps f := fun e => by rw [e, hn] at hud; cases hud
  have hpq : comps t ≠ comps u := fun e => htu (e ▸ List.prefix_refl _)
  have hFd : Tree.Place (kind w) (comps f) := by rw [Tree.Place, hfn, List.dropLast_concat]; exact hd
  have hqF' : ¬ comps u <+: comps f := by
    rw [hfn, List.prefix_concat_iff, ← hfn]
    rintro (h | h)
    · exact hqF h
    · have := prefix_of_dir hw.wf hd h
      rw [hu0] at this
      cases this
  have s1 : Tree.step (kind w) (.write false false f s) = (Tree.set (kind w) (comps f) (some (.file s)), true, []) := by
    simp only [Tree.step, hn, if_pos hFd]
    simp
  have s2 : Tree.step (Tree.set (kind w) (comps f) (some (.file s))) (.rename t u) =
      (Tree.move (Tree.set (kind w) (comps f) (some (.file s))) (comps t) (comps u), true, []) := by
    have a1 : Tree.set (kind w) (comps f) (some (.file s)) (comps t) ≠ none := by simp [Tree.set, hpF, hd]
    have a2 : Tree.Place (Tree.set (kind w) (comps f) (some (.file s))) (comps u) := by simp [Tree.Place, Tree.set, hdF, hud]
    have a3 : Tree.set (kind w) (comps f) (some (.file s)) (comps u) = none := by simp [Tree.set, hqF, hu0]
    simp only [Tree.step]
    rw [if_neg a1, if_neg hpq, if_neg (by rintro (h | h); exacts [htu h, h a2]), if_pos (.inl a3)]
  have g1 : Tree.move (Tree.set (kind w) (comps f) (some (.file s))) (comps t) (comps u) (comps g) = some (.file s) := by
    rw [Tree.move, hgn, if_pos (List.prefix_append _ _), List.drop_left, ← hfn, Tree.set, if_pos rfl]
  have g2 : Tree.move (Tree.set (kind w) (comps f) (some (.file s))) (comps t) (comps u) (comps f) = none := by
    rw [Tree.move, if_neg hqF', if_pos (by rw [hfn]; exact List.prefix_append _ _)]
  refine (C131_program E (Nat.le_max_left (maxPath + 312) (s.length + 56)) _ w hw ?_ ?_).mono ?_
  · intro c hc
    simp only [List.mem_cons, List.not_mem_nil, or_false] at hc
    rcases hc with rfl | rfl | rfl | rfl
    · exact ⟨hf, hs, hl⟩
    · exact ⟨ht, hu⟩
    · exact hg
    · exact hf
  · refine ⟨trivial, fun T1 r1 h1 => ⟨trivial, fun T2 r2 h2 => ?_⟩⟩
    simp only [Tree.Step] at h1 h2
    rw [s1] at h1
    obtain ⟨rfl, rfl⟩ := h1
    rw [s2] at h2
    obtain ⟨rfl, rfl⟩ := h2
    refine ⟨fun d e => ?_, fun T3 r3 h3 => ⟨fun d e => ?_, fun _ _ _ => trivial⟩⟩
    · simp only [g1] at e
      injection e with e
      injection e with e
      subst e
      exact ⟨hs0, by omega, Nat.le_max_right _ _⟩
    · simp only [Tree.Step] at h3
      rw [h3.1] at e
      simp only [g2] at e
      cases e
  · rintro ⟨w', rs⟩ ⟨-, h⟩
    rcases h with _ | ⟨h1, _ | ⟨h2, _ | ⟨h3, _ | ⟨h4, h5⟩⟩⟩⟩
    cases h5
    simp only [Tree.Step] at h1 h2 h3 h4
    rw [s1] at h1
    obtain ⟨rfl, rfl⟩ := h1
    rw [s2] at h2
    obtain ⟨rfl, rfl⟩ := h2
    simp only [g1] at h3
    obtain ⟨h3, rfl⟩ := h3
    simp only [h3, g2] at h4
    obtain ⟨-, rfl⟩ := h4
    rfl

/-- Example: `/d/f` is written, `/d` becomes `/e`. -/
example : (callsMore exE { nodes := [([[100]], .dir)] } [.one (.write false false (chars' "/d/f") [120]), .one (.rename (chars' "/d") (chars' "/e")),
    .load (chars' "/e/f"), .load (chars' "/d/f")]).mapOk (·.2) =
    .ok [.answer (true, []), .answer (true, []), .contents (some [some 120]), .contents none] ∧ comps (chars' "/d/f") = comps (chars' "/d") ++ [[102]] := by decide +kernel

/-- Example: `/a/b` is made in an empty file system, a file written into it, everything listed and removed. -/
example : (callsMore exE { nodes := [] } [.mkdirs (chars' "/a/b"), .one (.write false false (chars' "/a/b/c") [120]), .listAll false (chars' "/a"),
    .rmtree (chars' "/a"), .list false (chars' "/a")]).mapOk (fun r => (r.1.nodes, r.2)) =
    .ok ([], [.answer (true, []), .answer (true, []), .listing (some [chars' "/a/b/c", chars' "/a/b"]), .answer (true, []), .listing none]) := by decide +kernel

/-- The hypotheses of `C131_make_remove` are met by `/a/b` and `/a` in an empty file system. -/
example : PathText (chars' "/a/b") ∧ PathText (chars' "/a") ∧ comps (chars' "/a") <+: comps (chars' "/a/b") ∧
    ∀ p, comps (chars' "/a") ++ p <+: comps (chars' "/a/b") → (render (chars' "/a") p).length < maxPath := by
  have e1 : comps (chars' "/a/b") = [[97], [98]] := by decide +kernel
  have e2 : comps (chars' "/a") = [[97]] := by decide +kernel
  refine ⟨⟨by decide +kernel, by decide +kernel, by decide +kernel, by decide +kernel, by decide +kernel, ?_⟩,
    ⟨by decide +kernel, by decide +kernel, by decide +kernel, by decide +kernel, by decide +kernel, ?_⟩, by rw [e1, e2]; decide, ?_⟩
  · rw [e1]
    intro n hn
    simp only [List.mem_cons, List.not_mem_nil, or_false] at hn
    rcases hn with rfl | rfl <;> exact ⟨by decide, by decide, by decide, by decide, by decide, by decide⟩
  · rw [e2]
    intro n hn
    simp only [List.mem_cons, List.not_mem_nil, or_false] at hn
    subst hn
    exact ⟨by decide, by decide, by decide, by decide, by decide, by decide⟩
  · rw [e1, e2]
    intro p hp
    have : p <+: [[98]] := by simpa using hp
    rcases List.prefix_cons_iff.1 this with rfl | ⟨s, rfl, hs⟩
    · decide +kernel
    · rw [List.prefix_nil.1 hs]
      decide +kernel

end Vita
