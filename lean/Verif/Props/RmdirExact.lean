import Verif.Props.PathFs
/-!
# Removing a directory with its contents, exactly
-/

namespace Vita
open Out Spec Fs

theorem rmdirLoop_exact {w : World} (hw : Wf w) {t : Text} {d : Fs.Path} (hP : Plain w t d) (hd : kind w d = some .dir) (hd0 : d ≠ [])
    (hL : Listable w t d) {L : List Fs.Path} (hI : IsListing w false d L) :
    ∀ (l : List Arr) (L1 L2 : List Fs.Path) (w' : World), L = L1 ++ L2 → List.Forall₂ IsStr l (L2.map (render t)) → Removed w w' d L1 →
      ∃ r, Path.rmdirLoop t l w' = .ok r ∧
        Removed w r.1 d (L1 ++ (L2.takeWhile fun rel => w.mayRemove (d ++ rel)) ++
          if (∀ rel ∈ L2, w.mayRemove (d ++ rel) = true) ∧ w.mayRemove d = true then [[]] else []) ∧
        (r.2 = true ↔ ∀ rel ∈ L2, w.mayRemove (d ++ rel) = true) := by
  have hne : [] ∉ L := fun hc => ((hI.mem []).1 hc).1 rfl
  have hin : ∀ rel, rel ≠ [] → kind w (d ++ rel) ≠ none → rel ∈ L := fun rel h0 h1 => (hI.mem rel).2 ⟨h0, h1, by simp [Visible]⟩
  intro l
  induction l with
  | nil =>
    intro L1 L2 w' hLL hl h
    have hL2 : L2 = [] := by
      cases L2 with
      | nil => rfl
      | cons a L2 => cases hl
    subst hL2
    rw [List.append_nil] at hLL
    subst hLL
    have hnp : ∀ a ∈ L, ¬ a <+: [] := fun a ha hc => hne (List.prefix_nil.1 hc ▸ ha)
    have hres := fun f => h.resolve hw hP hL (rel := []) (by rw [List.append_nil, hd]; simp) hnp f
    rw [List.append_nil] at hres
    have hrt : render t [] = t := by simp [render]
    rw [hrt] at hres
    have hkd : kind w' d = some .dir := by simpa [hd] using h.at hne
    have hex : Path.exists_ w' t = true := by rw [Path.exists_, stat_dir (hres true) hkd]; rfl
    have hnames : names w' d = [] := by
      apply names_nil
      intro n
      rw [h.kind]
      by_cases hk : kind w (d ++ [n]) = none
      · rw [hk]; simp
      · rw [if_pos (List.mem_map.2 ⟨[n], hin [n] (by simp) hk, rfl⟩)]
    have hlast : (comps t).getLast? ≠ some [46] := fun hc => (hP.names _ (List.mem_of_getLast? hc)).1 rfl
    rw [Path.rmdirLoop, Path.rmdir, hex]
    simp only [Bool.not_true, Bool.false_eq_true, if_false]
    by_cases hm : w'.mayRemove d = true
    · have hrm : Fs.rmdir w' t = some (without w' d) := by simp [Fs.rmdir, hres false, hkd, hd0, hnames, hlast, hm]
      rw [hrm]
      refine ⟨_, rfl, ?_, by simp⟩
      have := h.snoc (rel := []) (by simpa using hd0)
      rw [h.may] at hm
      simpa [hm] using this
    · have hrm : Fs.rmdir w' t = none := by simp [Fs.rmdir, hres false, hm]
      rw [hrm]
      refine ⟨_, rfl, ?_, by simp⟩
      rw [h.may] at hm
      simpa [hm] using h
  | cons p ps ih =>
    intro L1 L2 w' hLL hl h
    cases L2 with
    | nil => cases hl
    | cons rel L2 =>
      rw [List.map_cons] at hl
      obtain ⟨hp, hps⟩ := List.forall₂_cons.1 hl
      have hmem : rel ∈ L := by rw [hLL]; simp
      obtain ⟨hr0, hk, -⟩ := (hI.mem rel).1 hmem
      have hgood := (prefix_dir hw rel hr0 hk).2
      have hord := hI.order
      have hnd := hI.nodup
      rw [hLL, List.pairwise_append, List.pairwise_cons] at hord
      rw [hLL, List.nodup_append, List.nodup_cons] at hnd
      have hbefore : ∀ a ∈ L1, ¬ a <+: rel := fun a ha => hord.2.2 a ha rel (by simp)
      have hnot : rel ∉ L1 := fun hc => hnd.2.2 rel hc rel (by simp) rfl
      have hres := fun f => h.resolve hw hP hL hk hbefore f
      have hkr := h.at hnot
      have hlast := render_last (t := t) hr0 hgood
      have hst := stat_of (hres true) hlast
      have hex : Path.exists_ w' (render t rel) = true := by
        rw [Path.exists_, hst, hkr]
        exact Option.isSome_iff_ne_none.2 hk
      have hdr : d ++ rel ≠ [] := by simp [hd0]
      have step : ∀ b : Bool, (b = true → w'.mayRemove (d ++ rel) = true) → (b = false → ¬ w'.mayRemove (d ++ rel) = true) →
          (if Path.isDir w' (render t rel) = true then Path.rmdir w' (render t rel) else Path.remove w' (render t rel)) =
            (if b then without w' (d ++ rel) else w', b) := by
        intro b hb1 hb2
        by_cases hdir : kind w' (d ++ rel) = some .dir
        · rw [if_pos (by rw [Path.isDir, hst, hdir]; rfl), Path.rmdir, hex]
          have hnames : names w' (d ++ rel) = [] := by
            apply names_nil
            intro n
            by_contra hc
            have hc' : kind w (d ++ (rel ++ [n])) ≠ none := by
              intro hcn
              rw [h.kind] at hc
              rw [List.append_assoc, hcn] at hc
              simp at hc
            have hmem2 := hin (rel ++ [n]) (by simp) hc'
            rw [hLL] at hmem2
            rcases List.mem_append.1 hmem2 with h1 | h1
            · rw [h.kind, if_pos (List.mem_map.2 ⟨_, h1, by simp⟩)] at hc
              exact hc rfl
            · rcases List.mem_cons.1 h1 with h1 | h1
              · simp at h1
              · exact hord.2.1.1 _ h1 (List.prefix_append _ _)
          have hl46 : (comps (render t rel)).getLast? ≠ some [46] := by
            rw [comps_render hgood, List.getLast?_append_of_ne_nil _ hr0]
            exact fun hc => (hgood _ (List.mem_of_getLast? hc)).dot rfl
          cases b with
          | true =>
            have hrm : Fs.rmdir w' (render t rel) = some (without w' (d ++ rel)) := by
              simp [Fs.rmdir, hres false, hdir, hdr, hd0, hnames, hl46, hb1 rfl]
            rw [hrm]; rfl
          | false =>
            have hrm : Fs.rmdir w' (render t rel) = none := by simp [Fs.rmdir, hres false, hb2 rfl]
            rw [hrm]; rfl
        · rw [if_neg (by rw [Path.isDir, hst]; simpa using hdir), Path.remove, hex]
          obtain ⟨kk, hkk⟩ := Option.ne_none_iff_exists'.1 hk
          rw [← hkr] at hkk
          have hkd : kk ≠ .dir := fun hc => hdir (hc ▸ hkk)
          cases b with
          | true =>
            have hrm : Fs.remove w' (render t rel) = some (without w' (d ++ rel)) := by
              simp [Fs.remove, hres false, hkk, hkd, hlast, hb1 rfl]
            rw [hrm]; rfl
          | false =>
            have hrm : Fs.remove w' (render t rel) = none := by simp [Fs.remove, hres false, hkk, hkd, hb2 rfl]
            rw [hrm]; rfl
      rw [Path.rmdirLoop, show Str.z p = .ok (render t rel) from hp.text, bind_ok]
      by_cases hm : w'.mayRemove (d ++ rel) = true
      · have := step true (fun _ => hm) (by simp)
        simp only [this, if_true]
        obtain ⟨r, e, h1, h2⟩ := ih (L1 ++ [rel]) L2 _ (by simp [hLL]) hps (h.snoc hdr)
        rw [h.may] at hm
        refine ⟨r, e, ?_, ?_⟩
        · simpa [hm, List.takeWhile_cons] using h1
        · rw [h2]
          simp [hm]
      · have := step false (by simp) (fun _ => hm)
        simp only [this, Bool.false_eq_true, if_false]
        rw [h.may] at hm
        refine ⟨_, rfl, ?_, ?_⟩
        · simpa [hm, List.takeWhile_cons] using h
        · simp [hm]

/-- **C63, exactly** (partial: for a directory named without `.` and `..`, whose subtree has no links and can be read).  There is an order `L` of everything below the
directory, each directory after its contents, such that the entries are removed in this order up to the first that must not be removed.  The
directory itself is removed if all these were and it may be.  The result is true exactly if all these were; what became of the directory
itself counts only if it was empty. -/
theorem C63_exactly_partial {E : Env} {w : World} (hw : Wf w) {z : Mem} {t : Text} (hz : CStr z t) {d : Fs.Path} (hP : Plain w t d)
    (hd : kind w d = some .dir) (hd0 : d ≠ []) (hL : Listable w t d) {H : Nat} (hH : ∀ q ∈ w.nodes, q.1.length ≤ H) :
    OkOr E (maxPath + 56) (Path.rmdirRecurse E (H + 1) w z) fun r =>
      ∃ L : List Fs.Path, (∀ rel, rel ∈ L ↔ rel ≠ [] ∧ kind w (d ++ rel) ≠ none) ∧ L.Nodup ∧ (L.Pairwise fun a b => ¬ a <+: b) ∧
        (r.2 = true ↔ (∀ rel ∈ L, w.mayRemove (d ++ rel) = true) ∧ (L = [] → w.mayRemove d = true)) ∧
        (∀ rel ∈ L, kind r.1 (d ++ rel) = if rel ∈ L.takeWhile (fun rel => w.mayRemove (d ++ rel)) then none else kind w (d ++ rel)) ∧
        (kind r.1 d = none ↔ (∀ rel ∈ L, w.mayRemove (d ++ rel) = true) ∧ w.mayRemove d = true) ∧
        ∀ q, ¬ d <+: q → kind r.1 q = kind w q := by
  have h0 : Removed w w d [] := ⟨rfl, rfl, by simp⟩
  have hres := fun f => h0.resolve hw hP hL (rel := []) (by rw [List.append_nil, hd]; simp) (by simp) f
  rw [List.append_nil, show render t [] = t by simp [render]] at hres
  have hex : Path.exists_ w t = true := by rw [Path.exists_, stat_dir (hres true) hd]; rfl
  unfold Path.rmdirRecurse
  rw [hz.text, bind_ok, hex]
  simp only [Bool.not_true, Bool.false_eq_true, if_false]
  refine (C62_dir_list_recurse hw hz (hres true) hd hL false hH []).bind ?_
  rintro o ⟨l, L, rfl, hl, hI⟩
  have hne : [] ∉ L := fun hc => ((hI.mem []).1 hc).1 rfl
  obtain ⟨r, e, h1, h2⟩ := rmdirLoop_exact hw hP hd hd0 hL hI l [] L w rfl hl h0
  rw [List.nil_append] at h1
  have hkind := h1.kind
  have fin : ∀ (b : Bool), (b = true ↔ (∀ rel ∈ L, w.mayRemove (d ++ rel) = true) ∧ (L = [] → w.mayRemove d = true)) →
      ∃ L : List Fs.Path, (∀ rel, rel ∈ L ↔ rel ≠ [] ∧ kind w (d ++ rel) ≠ none) ∧ L.Nodup ∧ (L.Pairwise fun a b => ¬ a <+: b) ∧
        (b = true ↔ (∀ rel ∈ L, w.mayRemove (d ++ rel) = true) ∧ (L = [] → w.mayRemove d = true)) ∧
        (∀ rel ∈ L, kind r.1 (d ++ rel) = if rel ∈ L.takeWhile (fun rel => w.mayRemove (d ++ rel)) then none else kind w (d ++ rel)) ∧
        (kind r.1 d = none ↔ (∀ rel ∈ L, w.mayRemove (d ++ rel) = true) ∧ w.mayRemove d = true) ∧
        ∀ q, ¬ d <+: q → kind r.1 q = kind w q := by
    intro b hb
    refine ⟨L, fun rel => by rw [hI.mem]; simp [Visible], hI.nodup, hI.order, hb, ?_, ?_, ?_⟩
    · intro rel hrel
      have hr0 : rel ≠ [] := fun hc => hne (hc ▸ hrel)
      rw [hkind]
      have : (d ++ rel ∈ ((L.takeWhile fun rel => w.mayRemove (d ++ rel)) ++
          if (∀ rel ∈ L, w.mayRemove (d ++ rel) = true) ∧ w.mayRemove d = true then [[]] else []).map (d ++ ·)) ↔
          rel ∈ L.takeWhile (fun rel => w.mayRemove (d ++ rel)) := by
        rw [List.mem_map]
        constructor
        · rintro ⟨a, ha, hae⟩
          rw [List.append_cancel_left_eq] at hae
          subst hae
          rcases List.mem_append.1 ha with ha | ha
          · exact ha
          · split at ha <;> simp_all
        · exact fun ha => ⟨rel, List.mem_append_left _ ha, rfl⟩
      simp only [this]
    · rw [hkind, hd]
      have : (d ∈ ((L.takeWhile fun rel => w.mayRemove (d ++ rel)) ++
          if (∀ rel ∈ L, w.mayRemove (d ++ rel) = true) ∧ w.mayRemove d = true then [[]] else []).map (d ++ ·)) ↔
          (∀ rel ∈ L, w.mayRemove (d ++ rel) = true) ∧ w.mayRemove d = true := by
        rw [List.mem_map]
        constructor
        · rintro ⟨a, ha, hae⟩
          have ha0 : a = [] := by simpa using hae
          subst ha0
          rcases List.mem_append.1 ha with ha | ha
          · exact absurd ((List.takeWhile_sublist _).subset ha) hne
          · split at ha
            · assumption
            · cases ha
        · intro h
          exact ⟨[], by rw [if_pos h]; simp, by simp⟩
      simp only [this]
      split
      · rename_i hc
        exact ⟨fun _ => hc, fun _ => rfl⟩
      · rename_i hc
        exact ⟨fun h => by (cases h), fun h => absurd h hc⟩
    · intro q hq
      rw [hkind, if_neg]
      intro hc
      obtain ⟨a, -, e⟩ := List.mem_map.1 hc
      exact hq ⟨a, e⟩
  simp only [List.nil_append]
  cases l with
  | nil =>
    have hL0 : L = [] := by cases L with
      | nil => rfl
      | cons a L => cases hl
    subst hL0
    rw [Path.rmdirLoop] at e
    injection e with e
    have e1 : (Path.rmdir w t).1 = r.1 := by rw [← e]
    show OkOr E _ (.ok (Path.rmdir w t)) _
    have := fin (Path.rmdir w t).2 ?_
    · rw [← e1] at this
      exact OkOr.ok this
    · have hk2 := hkind d
      rw [← e1] at hk2
      unfold Path.rmdir at hk2 ⊢
      rw [hex] at hk2 ⊢
      simp only [Bool.not_true, Bool.false_eq_true, if_false] at hk2 ⊢
      cases hf : Fs.rmdir w t with
      | none =>
        rw [hf] at hk2
        simp only [hd] at hk2
        by_cases hm : w.mayRemove d = true
        · simp [hm] at hk2
        · simp [hm]
      | some w2 =>
        have : w.mayRemove d = true := by
          unfold Fs.rmdir at hf
          rw [hres false] at hf
          by_contra hm
          simp [hm] at hf
        simp [this]
  | cons a l =>
    show OkOr E _ (Path.rmdirLoop t (a :: l) w) _
    rw [e]
    refine OkOr.ok (fin r.2 ?_)
    rw [h2]
    have : L ≠ [] := by rintro rfl; cases hl
    simp [this]

example : (Path.rmdirRecurse exE 4 { exW with mayRemove := fun p => p ≠ [[115]] } (zstr [47, 115])).mapOk (fun r => (r.1.nodes, r.2)) =
    .ok ([([[115]], .dir)], true) := by decide +kernel

end Vita
