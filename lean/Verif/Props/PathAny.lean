import Verif.Props.PathFs
/-!
# Listing and removing a subtree in any file system (C62, C63)

`Props/PathFs.lean` says what is listed and removed if the subtree has no links, can be read and has no path that is too long.  Here the file system is arbitrary.
-/

namespace Vita
open Out Spec Fs
seal wadd wsub wmul

namespace Spec

/-- Starting with the directory that `t` names and going from each directory to entries that are or lead to directories, one comes to the directory `d`,
which is named by the text `u`: `t` with the names of the entries.  Hidden entries are passed over if `ign`. -/
inductive Visits (w : World) (ign : Bool) (t : Text) : Text → Fs.Path → Prop
  | top {d : Fs.Path} : resolve w true t = some d → kind w d = some .dir → Visits w ign t t d
  | sub {u : Text} {d e : Fs.Path} {n : Name} : Visits w ign t u d → kind w (d ++ [n]) ≠ none → (ign = true → n.head? ≠ some 46) →
      resolve w true (u ++ 47 :: n) = some e → kind w e = some .dir → Visits w ign t (u ++ 47 :: n) e

/-- The text `v` names an entry of a directory so visited: the entry is at `q`. -/
def Entry (w : World) (ign : Bool) (t v : Text) (q : Fs.Path) : Prop :=
  ∃ u d n, Visits w ign t u d ∧ v = u ++ 47 :: n ∧ q = d ++ [n] ∧ kind w q ≠ none ∧ (ign = true → n.head? ≠ some 46)

end Spec

theorem Spec.Visits.at {w : World} {ign : Bool} {t u : Text} {d : Fs.Path} (h : Visits w ign t u d) : resolve w true u = some d ∧ kind w d = some .dir := by
  cases h with
  | top h1 h2 => exact ⟨h1, h2⟩
  | sub _ _ _ h1 h2 => exact ⟨h1, h2⟩

theorem Spec.Visits.trans {w : World} {ign : Bool} {t u v : Text} {d e : Fs.Path} (h : Visits w ign t u d) (h2 : Visits w ign u v e) : Visits w ign t v e := by
  induction h2 with
  | top h1 h2 =>
    have := h.at.1
    rw [h1] at this
    cases this
    exact h
  | sub _ hk hv hr hd ih => exact .sub ih hk hv hr hd

theorem Spec.Entry.trans {w : World} {ign : Bool} {t u v : Text} {d q : Fs.Path} (h : Visits w ign t u d) (h2 : Entry w ign u v q) : Entry w ign t v q := by
  obtain ⟨u', d', n, h3, h4⟩ := h2
  exact ⟨u', d', n, h.trans h3, h4⟩

/-! ### C62 -/

/-- A text of something inside of what `p` names. -/
def Under (p v : Text) : Prop := ∃ r, v = p ++ 47 :: r

/-- The texts `L` are exactly those of the entries visited from `t`, each once, directories after their contents. -/
structure FullList (w : World) (ign : Bool) (t : Text) (L : List Text) : Prop where
  mem : ∀ v q, Entry w ign t v q → v ∈ L
  nodup : L.Nodup
  order : L.Pairwise fun a b => ¬ Under a b

/-- The specification of the recursive call. -/
def RecAny (E : Env) (w : World) (ign : Bool) (rec : List Arr → Mem → Out (Option (List Arr))) (u : Text) : Prop :=
  ∀ z, CStr z u → ∀ pl, OkOr E (maxPath + 312) (rec pl z) fun r =>
    (r = none ∧ readdir w u = none) ∨ ∃ l L, r = some (pl ++ l) ∧ List.Forall₂ IsStr l L ∧ (∀ v ∈ L, ∃ q, Entry w ign u v q) ∧
      ((∀ u' d, Visits w ign u u' d → w.readable d = true) → FullList w ign u L)

theorem entry_under {w : World} {ign : Bool} {t v : Text} {q : Fs.Path} (h : Entry w ign t v q) : Under t v := by
  obtain ⟨u, d, n, hv, rfl, -⟩ := h
  have : ∀ {u d}, Visits w ign t u d → u = t ∨ Under t u := by
    intro u d hv
    induction hv with
    | top _ _ => exact Or.inl rfl
    | @sub u d e n _ _ _ _ _ ih =>
      rcases ih with rfl | ⟨r, rfl⟩
      · exact Or.inr ⟨n, rfl⟩
      · exact Or.inr ⟨r ++ 47 :: n, by simp⟩
  rcases this hv with rfl | ⟨r, rfl⟩
  · exact ⟨n, rfl⟩
  · exact ⟨r ++ 47 :: n, by simp⟩

/-- An entry is one of the first directory or of one visited from an entry of the first directory. -/
theorem entry_first {w : World} {ign : Bool} {t v : Text} {d q : Fs.Path} (hr : resolve w true t = some d) (h : Entry w ign t v q) :
    ∃ n, kind w (d ++ [n]) ≠ none ∧ (ign = true → n.head? ≠ some 46) ∧ (v = t ++ 47 :: n ∨
      (Path.isDir w (t ++ 47 :: n) = true ∧ Entry w ign (t ++ 47 :: n) v q)) := by
  have key : ∀ {u e}, Visits w ign t u e → (u = t ∧ e = d) ∨ ∃ n, kind w (d ++ [n]) ≠ none ∧ (ign = true → n.head? ≠ some 46) ∧
      Path.isDir w (t ++ 47 :: n) = true ∧ Visits w ign (t ++ 47 :: n) u e := by
    intro u e hv
    induction hv with
    | top h1 _ => rw [hr] at h1; cases h1; exact Or.inl ⟨rfl, rfl⟩
    | @sub u d' e n hv hk hn he hd ih =>
      rcases ih with ⟨rfl, rfl⟩ | ⟨m, h1, h2, h3, h4⟩
      · refine Or.inr ⟨n, hk, hn, ?_, .top he hd⟩
        rw [Path.isDir, stat_dir he hd]
        rfl
      · exact Or.inr ⟨m, h1, h2, h3, .sub h4 hk hn he hd⟩
  obtain ⟨u, e, n, hv, rfl, rfl, hk, hn⟩ := h
  rcases key hv with ⟨rfl, rfl⟩ | ⟨m, h1, h2, h3, h4⟩
  · exact ⟨n, hk, hn, Or.inl rfl⟩
  · exact ⟨m, h1, h2, Or.inr ⟨h3, u, e, n, h4, rfl, rfl, hk, hn⟩⟩

theorem name_end {n m x y : Text} (hn : 47 ∉ n) (hm : 47 ∉ m) (hx : x = [] ∨ ∃ r, x = 47 :: r) (hy : y = [] ∨ ∃ r, y = 47 :: r)
    (h : n ++ x = m ++ y) : n = m := by
  induction n generalizing m with
  | nil =>
    cases m with
    | nil => rfl
    | cons c m =>
      rcases hx with rfl | ⟨r, rfl⟩
      · cases h
      · simp only [List.nil_append, List.cons_append, List.cons.injEq] at h
        exact absurd (by rw [← h.1]; simp) hm
  | cons c n ih =>
    cases m with
    | nil =>
      rcases hy with rfl | ⟨r, rfl⟩
      · cases h
      · simp only [List.nil_append, List.cons_append, List.cons.injEq] at h
        exact absurd (by rw [h.1]; simp) hn
    | cons c' m =>
      simp only [List.cons_append, List.cons.injEq] at h
      obtain ⟨rfl, h⟩ := h
      rw [ih (fun hc => hn (by simp [hc])) (fun hc => hm (by simp [hc])) h]

/-- What the loop over the names `ns` adds, if everything can be read. -/
structure PartList (w : World) (ign : Bool) (t : Text) (ns : List Name) (L : List Text) : Prop where
  mem : ∀ n ∈ ns, (ign = true → n.head? ≠ some 46) →
    t ++ 47 :: n ∈ L ∧ (Path.isDir w (t ++ 47 :: n) = true → ∀ v q, Entry w ign (t ++ 47 :: n) v q → v ∈ L)
  from_ : ∀ v ∈ L, ∃ n ∈ ns, v = t ++ 47 :: n ∨ Under (t ++ 47 :: n) v
  nodup : L.Nodup
  order : L.Pairwise fun a b => ¬ Under a b

/-- The texts at and under one name, followed by those at and under other names. -/
theorem parts_cons {t : Text} {n : Name} {ns : List Name} {L S : List Text} (hn : 47 ∉ n) (hns : ∀ m ∈ ns, 47 ∉ m) (hnd : n ∉ ns)
    (hfrom : ∀ v ∈ L, ∃ n ∈ ns, v = t ++ 47 :: n ∨ Under (t ++ 47 :: n) v) (hLn : L.Nodup) (hLo : L.Pairwise fun a b => ¬ Under a b)
    (hU : ∀ v ∈ S, Under (t ++ 47 :: n) v) (hSn : S.Nodup) (hSo : S.Pairwise fun a b => ¬ Under a b) :
    (S ++ (t ++ 47 :: n) :: L).Nodup ∧ (S ++ (t ++ 47 :: n) :: L).Pairwise fun a b => ¬ Under a b := by
  have hself : t ++ 47 :: n ∉ S := by
    intro hc
    obtain ⟨r, hr⟩ := hU _ hc
    have := congrArg List.length hr
    simp at this
  -- a text at or under the name `n` is not at or under another name
  have cross : ∀ a b, (a = t ++ 47 :: n ∨ Under (t ++ 47 :: n) a) → b ∈ L → ¬ Under a b ∧ a ≠ b := by
    intro a b ha hb
    obtain ⟨m, hm, hb⟩ := hfrom b hb
    have ha' : ∃ x, (x = [] ∨ ∃ r, x = 47 :: r) ∧ a = t ++ 47 :: (n ++ x) := by
      rcases ha with rfl | ⟨r, rfl⟩
      · exact ⟨[], Or.inl rfl, by simp⟩
      · exact ⟨47 :: r, Or.inr ⟨r, rfl⟩, by simp⟩
    have hb' : ∃ y, (y = [] ∨ ∃ r, y = 47 :: r) ∧ b = t ++ 47 :: (m ++ y) := by
      rcases hb with rfl | ⟨r, rfl⟩
      · exact ⟨[], Or.inl rfl, by simp⟩
      · exact ⟨47 :: r, Or.inr ⟨r, rfl⟩, by simp⟩
    obtain ⟨x, hx, rfl⟩ := ha'
    obtain ⟨y, hy, rfl⟩ := hb'
    constructor
    · rintro ⟨r, hr⟩
      simp only [List.append_assoc, List.cons_append, List.append_cancel_left_eq, List.cons.injEq, true_and] at hr
      have : m = n := name_end (hns m hm) hn hy (x := y) (y := x ++ 47 :: r)
        (by rcases hx with rfl | ⟨r', rfl⟩
            · exact Or.inr ⟨r, rfl⟩
            · exact Or.inr ⟨r' ++ 47 :: r, rfl⟩) hr
      exact hnd (this ▸ hm)
    · intro hr
      simp only [List.append_cancel_left_eq, List.cons.injEq, true_and] at hr
      have := name_end hn (hns m hm) hx hy hr
      exact hnd (this ▸ hm)
  refine ⟨?_, ?_⟩
  · rw [List.nodup_append, List.nodup_cons]
    refine ⟨hSn, ⟨fun hc => (cross _ _ (Or.inl rfl) hc).2 rfl, hLn⟩, ?_⟩
    intro a ha b hb
    rcases List.mem_cons.1 hb with rfl | hb
    · exact fun e => hself (e ▸ ha)
    · exact (cross a b (Or.inr (hU a ha)) hb).2
  · rw [List.pairwise_append, List.pairwise_cons]
    refine ⟨hSo, ⟨fun b hb => (cross _ b (Or.inl rfl) hb).1, hLo⟩, ?_⟩
    intro a ha b hb
    rcases List.mem_cons.1 hb with rfl | hb
    · rintro ⟨r, hr⟩
      obtain ⟨r', rfl⟩ := hU a ha
      have := congrArg List.length hr
      simp at this
    · exact (cross a b (Or.inr (hU a ha)) hb).1

theorem PartList.cons {w : World} {ign : Bool} {t : Text} {n : Name} {ns : List Name} {L S : List Text} (hn : 47 ∉ n) (hns : ∀ m ∈ ns, 47 ∉ m) (hnd : n ∉ ns)
    (hS : Path.isDir w (t ++ 47 :: n) = true → ∀ v q, Entry w ign (t ++ 47 :: n) v q → v ∈ S) (hU : ∀ v ∈ S, Under (t ++ 47 :: n) v)
    (hSn : S.Nodup) (hSo : S.Pairwise fun a b => ¬ Under a b)
    (h : PartList w ign t ns L) : PartList w ign t (n :: ns) (S ++ (t ++ 47 :: n) :: L) := by
  obtain ⟨p1, p2⟩ := parts_cons hn hns hnd h.from_ h.nodup h.order hU hSn hSo
  refine ⟨?_, ?_, p1, p2⟩
  · intro m hm hv
    rcases List.mem_cons.1 hm with rfl | hm
    · exact ⟨by simp, fun hd v q hE => List.mem_append_left _ (hS hd v q hE)⟩
    · obtain ⟨h1, h2⟩ := h.mem m hm hv
      exact ⟨by simp [h1], fun hd v q hE => by simp [h2 hd v q hE]⟩
  · intro v hv
    rcases List.mem_append.1 hv with hv | hv
    · exact ⟨n, by simp, Or.inr (hU v hv)⟩
    · rcases List.mem_cons.1 hv with rfl | hv
      · exact ⟨n, by simp, Or.inl rfl⟩
      · obtain ⟨m, hm, h⟩ := h.from_ v hv
        exact ⟨m, by simp [hm], h⟩

theorem PartList.skip {w : World} {ign : Bool} {t : Text} {n : Name} {ns : List Name} {L : List Text} (hn : ign = true ∧ n.head? = some 46)
    (h : PartList w ign t ns L) : PartList w ign t (n :: ns) L := by
  refine ⟨?_, ?_, h.nodup, h.order⟩
  · intro m hm hv
    rcases List.mem_cons.1 hm with rfl | hm
    · exact absurd hn.2 (hv hn.1)
    · exact h.mem m hm hv
  · intro v hv
    obtain ⟨m, hm, h⟩ := h.from_ v hv
    exact ⟨m, by simp [hm], h⟩

theorem isDir_resolve {w : World} {u : Text} (h : Path.isDir w u = true) : ∃ e, resolve w true u = some e ∧ kind w e = some .dir := by
  unfold Path.isDir at h
  have h : stat w u = some .dir := by simpa using h
  unfold stat at h
  cases hr : resolve w true u with
  | none => rw [hr] at h; cases h
  | some e =>
    rw [hr] at h
    simp only [Option.bind_eq_bind, Option.bind_some] at h
    cases hk : kind w e with
    | none => rw [hk] at h; cases h
    | some k =>
      rw [hk] at h
      simp only [Option.bind_some] at h
      split at h
      · cases h
      · injection h with h
        exact ⟨e, rfl, by rw [hk, h]⟩

theorem recurseLoop_any {E : Env} {w : World} (hw : Wf w) {ign : Bool} {z : Mem} {t : Text} (hz : CStr z t) {d : Fs.Path}
    (hr : resolve w true t = some d) (hd : kind w d = some .dir)
    {rec : List Arr → Mem → Out (Option (List Arr))} (hrec : ∀ n e, n ≠ [] → resolve w true (t ++ 47 :: n) = some e → RecAny E w ign rec (t ++ 47 :: n)) :
    ∀ (ns : List Name), ns.Nodup → (∀ n ∈ ns, kind w (d ++ [n]) ≠ none) → ∀ (st : Arr) (pl : List Arr), IsStr st [] →
      OkOr E (maxPath + 312) (Path.recurseLoop E w ign z rec ns st pl) fun r => ∃ l L, r = pl ++ l ∧ List.Forall₂ IsStr l L ∧
        (∀ v ∈ L, ∃ q, Entry w ign t v q) ∧ ((∀ u' d, Visits w ign t u' d → w.readable d = true) → PartList w ign t ns L) := by
  obtain ⟨ht0, hlen0, -⟩ := resolve_some hr
  have top : Visits w ign t t d := .top hr hd
  intro ns
  induction ns with
  | nil =>
    intro _ _ st pl _
    exact OkOr.ok ⟨[], [], by simp, by simp, by simp, fun _ => ⟨by simp, by simp, by simp, by simp⟩⟩
  | cons n ns ih =>
    intro hnd hk st pl hst
    rw [List.nodup_cons] at hnd
    have ih := ih hnd.2 (fun m hm => hk m (by simp [hm]))
    have hkn := hk n (by simp)
    have hn := (parent_dir hw hkn).2
    have hnl := hn.len
    rw [Path.recurseLoop, skip_ok hn, bind_ok]
    by_cases hc : ign = true ∧ n.head? = some 46
    · rw [if_pos (by simpa using hc)]
      refine (ih st pl hst).mono ?_ (Nat.le_refl _)
      rintro r ⟨l, L, h1, h2, h3, h4⟩
      exact ⟨l, L, h1, h2, h3, fun h => (h4 h).skip hc⟩
    · rw [if_neg (by simpa using hc)]
      have hv : ign = true → n.head? ≠ some 46 := fun h1 h2 => hc ⟨h1, h2⟩
      refine (append_okOr hst hz ht0).bind ?_
      rintro s1 ⟨h1, -, -⟩
      refine (append_okOr h1 sepZ_cstr (by simp)).bind ?_
      rintro s2 ⟨h2, -, -⟩
      refine (append_okOr h2 (nameMem_cstr hn) hn.ne).bind ?_
      rintro s3 ⟨h3, -, -⟩
      have h3 : IsStr s3 (t ++ 47 :: n) := by simpa using h3
      rw [show Str.z s3 = .ok (t ++ 47 :: n) from h3.text, bind_ok]
      have fin : ∀ (l : List Arr) (L : List Text), List.Forall₂ IsStr l L → (∀ v ∈ L, ∃ q, Entry w ign t v q) →
          (∀ v ∈ L, Under (t ++ 47 :: n) v) →
          ((∀ u' d, Visits w ign t u' d → w.readable d = true) → L.Nodup ∧ (L.Pairwise fun a b => ¬ Under a b) ∧
            (Path.isDir w (t ++ 47 :: n) = true → ∀ v q, Entry w ign (t ++ 47 :: n) v q → v ∈ L)) →
          OkOr E (maxPath + 312) (do
            let d ← Str.dup E s3
            let st ← Str.clear s3
            Path.recurseLoop E w ign z rec ns st (pl ++ l ++ [d])) fun r => ∃ l L, r = pl ++ l ∧ List.Forall₂ IsStr l L ∧
              (∀ v ∈ L, ∃ q, Entry w ign t v q) ∧ ((∀ u' d, Visits w ign t u' d → w.readable d = true) → PartList w ign t (n :: ns) L) := by
        intro l L hl hL hU hF
        refine (create_text_okOr h3.cstr (by simp)).bind fun dn hdn => ?_
        obtain ⟨s4, e4, h4, -, -⟩ := clear_ok h3
        rw [e4, bind_ok]
        refine (ih s4 (pl ++ l ++ [dn]) h4).mono ?_ (Nat.le_refl _)
        rintro r ⟨l', L', rfl, hl', hL', hP'⟩
        refine ⟨l ++ dn :: l', L ++ (t ++ 47 :: n) :: L', by simp, List.rel_append hl (.cons hdn hl'), ?_, fun h => ?_⟩
        · intro v hv'
          rcases List.mem_append.1 hv' with h | h
          · exact hL v h
          · rcases List.mem_cons.1 h with rfl | h
            · exact ⟨d ++ [n], t, d, n, top, rfl, rfl, hkn, hv⟩
            · exact hL' v h
        · obtain ⟨f1, f2, f3⟩ := hF h
          exact (hP' h).cons hn.sep (fun m hm => (parent_dir hw (hk m (by simp [hm]))).2.sep) hnd.1 f3 hU f1 f2
      by_cases hdir : Path.isDir w (t ++ 47 :: n) = true
      · rw [if_pos hdir]
        obtain ⟨e, he, hke⟩ := isDir_resolve hdir
        have sub : Visits w ign t (t ++ 47 :: n) e := .sub top hkn hv he hke
        refine (hrec n e hn.ne he s3.mem h3.cstr pl).bind ?_ (Nat.le_refl _)
        rintro r (⟨rfl, hnone⟩ | ⟨l, L, rfl, hl, hL, hF⟩)
        · refine OkOr.ok ⟨[], [], by simp, by simp, by simp, fun h => ?_⟩
          exfalso
          have : readdir w (t ++ 47 :: n) = some ([46] :: [46, 46] :: names w e) := by simp [readdir, he, hke, h _ _ sub]
          rw [hnone] at this
          cases this
        · refine fin l L hl ?_ ?_ ?_
          · intro v hv'
            obtain ⟨q, hq⟩ := hL v hv'
            exact ⟨q, hq.trans sub⟩
          · intro v hv'
            obtain ⟨q, hq⟩ := hL v hv'
            exact entry_under hq
          · intro h
            have := hF fun u' d' hv' => h u' d' (sub.trans hv')
            exact ⟨this.nodup, this.order, fun _ => this.mem⟩
      · rw [if_neg hdir, bind_ok]
        have := fin [] [] (by simp) (by simp) (by simp) (fun _ => ⟨by simp, by simp, fun h => absurd h hdir⟩)
        simpa using this

theorem readdir_none {w : World} {t : Text} (h : Path.exists_ w t = false) : readdir w t = none := by
  unfold readdir
  cases hr : resolve w true t with
  | none => rfl
  | some p =>
    simp only [Option.bind_eq_bind, Option.bind_some]
    rw [if_neg]
    rintro ⟨hk, -⟩
    rw [Path.exists_, stat_dir hr hk] at h
    cases h

theorem readdir_some {w : World} {t : Text} {ns : List Name} (h : readdir w t = some ns) :
    ∃ d, resolve w true t = some d ∧ kind w d = some .dir ∧ ns = [46] :: [46, 46] :: names w d := by
  unfold readdir at h
  cases hr : resolve w true t with
  | none => rw [hr] at h; cases h
  | some d =>
    rw [hr] at h
    simp only [Option.bind_eq_bind, Option.bind_some] at h
    split at h
    · injection h with h
      rename_i hh
      exact ⟨d, rfl, hh.1, h.symm⟩
    · cases h

theorem dirListRecurse_any {E : Env} {w : World} (hw : Wf w) {ign : Bool} :
    ∀ (k : Nat) {t : Text}, 0 < k → maxPath ≤ t.length + k → RecAny E w ign (Path.dirListRecurse E w ign k) t := by
  intro k
  induction k with
  | zero => intro t h; omega
  | succ k ih =>
    intro t _ hk z hz pl
    rw [Path.dirListRecurse, hz.text, bind_ok]
    cases hex : Path.exists_ w t with
    | false => exact OkOr.ok (Or.inl ⟨rfl, readdir_none hex⟩)
    | true =>
      simp only [Bool.not_true, Bool.false_eq_true, if_false]
      cases hrd : readdir w t with
      | none => exact OkOr.ok (Or.inl ⟨rfl, rfl⟩)
      | some ns =>
        obtain ⟨d, hr, hd, rfl⟩ := readdir_some hrd
        refine (createCapacity_okOr (by decide) (by decide)).bind ?_ (by unfold maxPath defaultInit; omega)
        intro st hst
        rw [Path.recurseLoop, (skip_dots ign).1, bind_ok, if_pos rfl, Path.recurseLoop, (skip_dots ign).2, bind_ok, if_pos rfl]
        have hrec : ∀ n e, n ≠ [] → resolve w true (t ++ 47 :: n) = some e → RecAny E w ign (Path.dirListRecurse E w ign k) (t ++ 47 :: n) := by
          intro n e hn he
          have h1 := (resolve_some he).2.1
          have h2 := List.length_pos_iff.2 hn
          simp only [List.length_append, List.length_cons] at h1
          exact ih (by omega) (by simp only [List.length_append, List.length_cons]; omega)
        refine (recurseLoop_any hw hz hr hd hrec (names w d) (names_nodup hw d) (fun n hn => mem_names.1 hn) st pl hst.1).bind ?_ (Nat.le_refl _)
        rintro r ⟨l, L, rfl, hl, hL, hP⟩
        refine OkOr.ok (Or.inr ⟨l, L, rfl, hl, hL, fun h => ⟨fun v q hE => ?_, (hP h).nodup, (hP h).order⟩⟩)
        obtain ⟨n, hk, hv, h2⟩ := entry_first hr hE
        obtain ⟨m1, m2⟩ := (hP h).mem n (mem_names.2 hk) hv
        rcases h2 with rfl | ⟨hdir, hE2⟩
        · exact m1
        · exact m2 hdir v q hE2

/-- **C62**, in any file system: the function always ends (paths get longer until they cannot be resolved, also if links lead back), and returns either no list,
because the directory cannot be read, or adds to the list only texts of entries that exist, of directories reached from the given one.  If all these directories can be
read, it adds all of them, each once, directories after their contents. -/
theorem C62_any_file_system {E : Env} {w : World} (hw : Wf w) {z : Mem} {t : Text} (hz : CStr z t) (ign : Bool) (pl : List Arr) :
    OkOr E (maxPath + 312) (Path.dirListRecurse E w ign maxPath pl z) fun r =>
      (r = none ∧ readdir w t = none) ∨ ∃ l L, r = some (pl ++ l) ∧ List.Forall₂ IsStr l L ∧ (∀ v ∈ L, ∃ q, Entry w ign t v q) ∧
        ((∀ u d, Visits w ign t u d → w.readable d = true) →
          (∀ v, v ∈ L ↔ ∃ q, Entry w ign t v q) ∧ L.Nodup ∧ L.Pairwise fun a b => ¬ ∃ r, b = a ++ 47 :: r) := by
  refine (dirListRecurse_any hw maxPath (by decide) (by omega) z hz pl).mono ?_ (Nat.le_refl _)
  rintro r (h | ⟨l, L, h1, h2, h3, h4⟩)
  · exact Or.inl h
  · exact Or.inr ⟨l, L, h1, h2, h3, fun h => ⟨fun v => ⟨h3 v, fun ⟨q, hq⟩ => (h4 h).mem v q hq⟩, (h4 h).nodup, (h4 h).order⟩⟩

/-- Example: `/s/l` is a link to `/s` itself.  The file `/s/f` is listed as `/s/f`, as `/s/l/f`, and so on, until too many links would have to be followed. -/
def exLoop : World := { nodes := [([[115]], .dir), ([[115], [108]], .link (chars' "/s")), ([[115], [102]], .file [1])] }

theorem exLoop_wf : Wf exLoop := by
  refine ⟨by decide, ?_⟩
  intro q hq
  simp only [exLoop, List.mem_cons, List.not_mem_nil, or_false] at hq
  rcases hq with rfl | rfl | rfl
  · exact ⟨[], [115], rfl, ⟨by decide, by decide, by decide, by decide, by decide, by decide⟩, by decide⟩
  · exact ⟨[[115]], [108], rfl, ⟨by decide, by decide, by decide, by decide, by decide, by decide⟩, by decide⟩
  · exact ⟨[[115]], [102], rfl, ⟨by decide, by decide, by decide, by decide, by decide, by decide⟩, by decide⟩

example : Entry exLoop false (chars' "/s") (chars' "/s/l/f") [[115], [102]] :=
  ⟨chars' "/s/l", [[115]], [102], .sub (u := chars' "/s") (n := [108]) (d := [[115]]) (.top (by decide +kernel) (by decide +kernel)) (by decide +kernel) (by simp)
    (by decide +kernel) (by decide +kernel), by decide +kernel, rfl, by decide +kernel, by simp⟩

example : (Path.dirListRecurse exE exLoop false maxPath [] (zstr (chars' "/s"))).mapOk (fun o => o.map (fun l => (l.length, (l.map Str.z).getLast?))) =
    .ok (some (82, some (.ok (chars' "/s/f")))) := by decide +kernel

/-! ### C63 -/

/-- The world `w'` is `w` with some nodes removed. -/
structure Less (w w' : World) : Prop where
  cwd : w'.cwd = w.cwd
  may : w'.mayRemove = w.mayRemove
  sub : ∀ q, kind w' q = none ∨ kind w' q = kind w q

theorem Less.some {w w' : World} (h : Less w w') {q : Fs.Path} {k : Kind} (hk : kind w' q = some k) : kind w q = some k := by
  rcases h.sub q with h | h
  · rw [h] at hk; cases hk
  · rw [← h]; exact hk

theorem walk1_less {w w' : World} (h : Less w w') {r r' : Fs.Path → List Name → Option Fs.Path}
    (hr : ∀ cur cs p, r' cur cs = some p → r cur cs = some p) :
    ∀ (cs : List Name) (cur p : Fs.Path), walk1 w' false r' cur cs = some p → walk1 w false r cur cs = some p := by
  intro cs
  induction cs with
  | nil => intro cur p h; exact h
  | cons c cs ih =>
    intro cur p hp
    rw [walk1] at hp ⊢
    by_cases h1 : kind w' cur ≠ some .dir
    · rw [if_pos h1] at hp; cases hp
    · rw [if_neg h1] at hp
      have h1' : ¬ kind w cur ≠ some .dir := fun hc => hc (h.some (not_not.1 h1))
      rw [if_neg h1']
      by_cases h2 : c = [46]
      · rw [if_pos h2] at hp ⊢; exact ih _ _ hp
      · rw [if_neg h2] at hp ⊢
        by_cases h3 : c = [46, 46]
        · rw [if_pos h3] at hp ⊢; exact ih _ _ hp
        · rw [if_neg h3] at hp ⊢
          cases hx : kind w' (cur ++ [c]) with
          | none =>
            rw [hx] at hp
            simp only at hp
            by_cases hcs : cs = []
            · rw [if_pos hcs] at hp
              cases hp
              cases hy : kind w (cur ++ [c]) with
              | none => simp [hcs]
              | some k => cases k <;> simp [hcs, walk1]
            · rw [if_neg hcs] at hp; cases hp
          | some k =>
            rw [hx] at hp
            rw [h.some hx]
            cases k with
            | link x =>
              simp only at hp ⊢
              split
              · rename_i hh; rw [if_pos hh] at hp; exact hp
              · rename_i hh; rw [if_neg hh] at hp; exact hr _ _ _ hp
            | dir => exact ih _ _ hp
            | file b => exact ih _ _ hp

theorem walk_less {w w' : World} (h : Less w w') : ∀ (l : Nat) (cur : Fs.Path) (cs : List Name) (p : Fs.Path),
    walk w' false l cur cs = some p → walk w false l cur cs = some p
  | 0, cur, cs, p, hp => walk1_less h (by simp) cs cur p hp
  | l + 1, cur, cs, p, hp => walk1_less h (walk_less h l) cs cur p hp

theorem resolve_less {w w' : World} (h : Less w w') {t : Text} {p : Fs.Path} (hp : resolve w' false t = some p) : resolve w false t = some p := by
  obtain ⟨h0, h1, h2⟩ := resolve_some hp
  rw [resolve_eq h0 h1]
  have : base w' t = base w t := by unfold base; rw [h.cwd]
  rw [this] at h2
  exact walk_less h 40 _ _ _ h2

theorem walk1_snoc_entry {w : World} {r1 r2 : Fs.Path → List Name → Option Fs.Path} {d : Fs.Path} (hd : kind w d = some .dir) {n : Name}
    (hn : n ≠ [46] ∧ n ≠ [46, 46])
    (hr : ∀ cur cs, r1 cur cs = some d → r2 cur (cs ++ [n]) = some (d ++ [n])) :
    ∀ (cs : List Name) (cur : Fs.Path), walk1 w true r1 cur cs = some d → walk1 w false r2 cur (cs ++ [n]) = some (d ++ [n]) := by
  intro cs
  induction cs with
  | nil =>
    intro cur h
    simp only [walk1, Option.some.injEq] at h
    subst h
    rw [List.nil_append, walk1, if_neg (by simp [hd]), if_neg hn.1, if_neg hn.2]
    split
    · simp
    · simp
    · rfl
  | cons c cs ih =>
    intro cur h
    rw [walk1] at h
    rw [List.cons_append, walk1]
    by_cases h1 : kind w cur ≠ some .dir
    · rw [if_pos h1] at h; cases h
    · rw [if_neg h1] at h ⊢
      by_cases h2 : c = [46]
      · rw [if_pos h2] at h ⊢; exact ih _ h
      · rw [if_neg h2] at h ⊢
        by_cases h3 : c = [46, 46]
        · rw [if_pos h3] at h ⊢; exact ih _ h
        · rw [if_neg h3] at h ⊢
          cases hx : kind w (cur ++ [c]) with
          | none =>
            rw [hx] at h
            simp only at h
            split at h
            · injection h with h
              rw [h, hd] at hx; cases hx
            · cases h
          | some k =>
            rw [hx] at h
            cases k with
            | link x =>
              simp only [Bool.true_eq_false, and_false, if_false] at h
              simp only [List.append_eq_nil_iff, List.cons_ne_nil, and_false, false_and, if_false]
              have := hr _ _ h
              rwa [List.append_assoc] at this
            | dir => exact ih _ h
            | file b => exact ih _ h

theorem walk_snoc_entry {w : World} {d : Fs.Path} (hd : kind w d = some .dir) {n : Name} (hn : n ≠ [46] ∧ n ≠ [46, 46]) :
    ∀ (l : Nat) (cs : List Name) (cur : Fs.Path), walk w true l cur cs = some d → walk w false l cur (cs ++ [n]) = some (d ++ [n])
  | 0, cs, cur, h => walk1_snoc_entry hd hn (by simp) cs cur h
  | l + 1, cs, cur, h => walk1_snoc_entry hd hn (fun cur cs => walk_snoc_entry hd hn l cs cur) cs cur h

/-- The name of an entry resolves to the entry, if a link at the end is not followed. -/
theorem resolve_entry {w : World} {t : Text} {d : Fs.Path} (h : resolve w true t = some d) (hd : kind w d = some .dir) {n : Name} (hn : GoodName n)
    {q : Fs.Path} (hq : resolve w false (t ++ 47 :: n) = some q) : q = d ++ [n] := by
  obtain ⟨h0, -, h2⟩ := resolve_some h
  obtain ⟨-, -, h3⟩ := resolve_some hq
  have hb : base w (t ++ 47 :: n) = base w t := by
    cases t with
    | nil => exact absurd rfl h0
    | cons c t => rfl
  rw [comps_sep, comps_name hn, hb, walk_snoc_entry hd ⟨hn.dot, hn.dotdot⟩ 40 _ _ h2] at h3
  injection h3 with h3
  exact h3.symm

theorem wf_without {w : World} (hw : Wf w) {p : Fs.Path} (hp : p ≠ []) (h : ∀ n, kind w (p ++ [n]) = none) : Wf (without w p) := by
  refine ⟨hw.nodup.sublist (List.Sublist.map _ List.filter_sublist), ?_⟩
  intro q hq
  have hq' : q ∈ w.nodes := (List.mem_filter.1 hq).1
  obtain ⟨a, n, e, hn, hk⟩ := hw.parent q hq'
  refine ⟨a, n, e, hn, ?_⟩
  rw [kind_without hp, if_neg]
  · exact hk
  · rintro rfl
    have h0 : a ++ [n] ≠ [] := by simp
    exact (kind_exists h0).2 ⟨q.2, by rw [← e]; exact hq'⟩ (h n)

/-- What one successful removal does. -/
theorem removal {w : World} (hw : Wf w) {v : Text} {b : Bool} {w' : World} (h : (if b then Path.rmdir w v else Path.remove w v) = (w', true)) :
    ∃ p, resolve w false v = some p ∧ p ≠ [] ∧ kind w p ≠ none ∧ w.mayRemove p = true ∧ w' = without w p ∧ (∀ n, kind w (p ++ [n]) = none) := by
  have rm : ∀ {w'}, Fs.rmdir w v = some w' →
      ∃ p, resolve w false v = some p ∧ p ≠ [] ∧ kind w p ≠ none ∧ w.mayRemove p = true ∧ w' = without w p ∧ (∀ n, kind w (p ++ [n]) = none) := by
    intro w' h
    unfold Fs.rmdir at h
    cases hr : resolve w false v with
    | none => rw [hr] at h; cases h
    | some p =>
      rw [hr] at h
      simp only [Option.bind_eq_bind, Option.bind_some] at h
      split at h
      · rename_i hh
        injection h with h
        refine ⟨p, rfl, hh.2.1, by rw [hh.1]; simp, hh.2.2.2.2, h.symm, fun n => ?_⟩
        by_contra hc
        have := mem_names.2 hc
        rw [hh.2.2.1] at this
        cases this
      · cases h
  have rem : ∀ {w'}, Fs.remove w v = some w' →
      ∃ p, resolve w false v = some p ∧ p ≠ [] ∧ kind w p ≠ none ∧ w.mayRemove p = true ∧ w' = without w p ∧ (∀ n, kind w (p ++ [n]) = none) := by
    intro w' h
    have h' := h
    unfold Fs.remove at h
    cases hr : resolve w false v with
    | none => rw [hr] at h; cases h
    | some p =>
      rw [hr] at h
      simp only [Option.bind_eq_bind, Option.bind_some] at h
      cases hk : kind w p with
      | none => rw [hk] at h; cases h
      | some k =>
        rw [hk] at h
        simp only [Option.bind_some] at h
        split at h
        · rw [hr] at rm
          exact rm h
        · rename_i hkd
          split at h
          · rename_i hh
            injection h with h
            have hp : p ≠ [] := by
              rintro rfl
              rw [kind_nil] at hk
              injection hk with hk
              exact hkd hk.symm
            refine ⟨p, rfl, hp, by rw [hk]; simp, hh.2, h.symm, fun n => ?_⟩
            by_contra hc
            have := (parent_dir hw hc).1
            rw [hk] at this
            injection this with this
            exact hkd this
          · cases h
  cases b with
  | true =>
    simp only [if_true] at h
    unfold Path.rmdir at h
    split at h
    · cases h
    · cases hx : Fs.rmdir w v with
      | none => rw [hx] at h; cases h
      | some w2 =>
        rw [hx] at h
        injection h with h1 h2
        subst h1
        exact rm hx
  | false =>
    simp only [Bool.false_eq_true, if_false] at h
    unfold Path.remove at h
    split at h
    · cases h
    · cases hx : Fs.remove w v with
      | none => rw [hx] at h; cases h
      | some w2 =>
        rw [hx] at h
        injection h with h1 h2
        subst h1
        exact rem hx

/-- A removal that fails leaves the world alone. -/
theorem removal_fails {w : World} {v : Text} {b : Bool} {w' : World} (h : (if b then Path.rmdir w v else Path.remove w v) = (w', false)) : w' = w := by
  cases b with
  | true =>
    simp only [if_true] at h
    unfold Path.rmdir at h
    split at h
    · injection h with h; exact h.symm
    · split at h
      · injection h with h; exact h.symm
      · cases h
  | false =>
    simp only [Bool.false_eq_true, if_false] at h
    unfold Path.remove at h
    split at h
    · injection h with h; exact h.symm
    · split at h
      · injection h with h; exact h.symm
      · cases h

/-- The node at `q` is what the text `t` names, a directory; or the entry of a directory visited from `t`. -/
def InTree (w : World) (t : Text) (q : Fs.Path) : Prop :=
  (resolve w false t = some q ∧ kind w q = some .dir) ∨ ∃ v, Entry w false t v q

/-- The state of the removal: some nodes that may be removed are gone. -/
structure Going (w w' : World) (t : Text) : Prop where
  wf : Wf w'
  less : Less w w'
  gone : ∀ q, kind w' q ≠ kind w q → w.mayRemove q = true ∧ q ≠ [] ∧ InTree w t q

theorem Going.step {w w' : World} {t : Text} (h : Going w w' t) {p : Fs.Path} (hp : p ≠ []) (hm : w'.mayRemove p = true)
    (hc : ∀ n, kind w' (p ++ [n]) = none) (ht : InTree w t p) : Going w (without w' p) t := by
  refine ⟨wf_without h.wf hp hc, ⟨h.less.cwd, h.less.may, fun q => ?_⟩, fun q hq => ?_⟩
  · rw [kind_without hp]
    split
    · exact Or.inl rfl
    · exact h.less.sub q
  · by_cases hqp : q = p
    · subst hqp
      rw [h.less.may] at hm
      exact ⟨hm, hp, ht⟩
    · rw [kind_without hp, if_neg hqp] at hq
      exact h.gone q hq

theorem visits_good {w : World} (hw : Wf w) {ign : Bool} {t v : Text} {q : Fs.Path} (h : Entry w ign t v q) :
    ∃ u d n, Visits w ign t u d ∧ v = u ++ 47 :: n ∧ q = d ++ [n] ∧ GoodName n := by
  obtain ⟨u, d, n, h1, h2, rfl, hk, -⟩ := h
  exact ⟨u, d, n, h1, h2, rfl, (parent_dir hw hk).2⟩

theorem rmdirTop_any {w w' : World} {t : Text} (h : Going w w' t) : Going w (Path.rmdir w' t).1 t := by
  cases hx : Path.rmdir w' t with
  | mk w2 b =>
    cases b with
    | false =>
      have := removal_fails (b := true) (v := t) (w := w') (by simpa using hx)
      subst this
      exact h
    | true =>
      obtain ⟨p, hr, hp, hk, hm, rfl, hc⟩ := removal h.wf (b := true) (v := t) (by simpa using hx)
      refine h.step hp hm hc (Or.inl ⟨resolve_less h.less hr, ?_⟩)
      -- what `rmdir` removes is a directory
      have hx2 := congrArg Prod.snd hx
      unfold Path.rmdir at hx2
      split at hx2
      · cases hx2
      · unfold Fs.rmdir at hx2
        rw [hr] at hx2
        simp only [Option.bind_eq_bind, Option.bind_some] at hx2
        by_cases hh : kind w' p = some .dir ∧ p ≠ [] ∧ names w' p = [] ∧ (comps t).getLast? ≠ some [46] ∧ w'.mayRemove p = true
        · exact h.less.some hh.1
        · rw [if_neg hh] at hx2
          cases hx2

theorem rmdirTop_gone {w : World} (hw : Wf w) {t : Text} {q : Fs.Path} (h : kind w q = none) : kind (Path.rmdir w t).1 q = none := by
  cases hx : Path.rmdir w t with
  | mk w2 b =>
    cases b with
    | false =>
      have := removal_fails (b := true) (v := t) (w := w) (by simpa using hx)
      subst this
      exact h
    | true =>
      obtain ⟨p, -, hp, -, -, rfl, -⟩ := removal hw (b := true) (v := t) (by simpa using hx)
      simp only
      rw [kind_without hp, h]
      simp

theorem rmdirLoop_any {w : World} (hw : Wf w) {t : Text} : ∀ (l : List Arr) (L : List Text), List.Forall₂ IsStr l L → (∀ v ∈ L, ∃ q, Entry w false t v q) →
    ∀ w', Going w w' t → ∃ r, Path.rmdirLoop t l w' = .ok r ∧ Going w r.1 t ∧ (∀ q, kind w' q = none → kind r.1 q = none) ∧
      (r.2 = true → ∀ v ∈ L, ∀ q, Entry w false t v q → kind r.1 q = none) := by
  intro l
  induction l with
  | nil =>
    intro L hl _ w' h
    cases hl
    exact ⟨_, rfl, rmdirTop_any h, fun q hq => rmdirTop_gone h.wf hq, by simp⟩
  | cons p ps ih =>
    intro L hl hL w' h
    cases L with
    | nil => cases hl
    | cons v L =>
      obtain ⟨hp, hps⟩ := List.forall₂_cons.1 hl
      rw [Path.rmdirLoop, show Str.z p = .ok v from hp.text, bind_ok]
      have key : ∀ r, (if Path.isDir w' v then Path.rmdir w' v else Path.remove w' v) = r → Going w r.1 t ∧ (∀ q, kind w' q = none → kind r.1 q = none) ∧
          (r.2 = true → ∀ q, Entry w false t v q → kind r.1 q = none) := by
        rintro ⟨w2, b⟩ hx
        cases b with
        | false =>
          have := removal_fails hx
          subst this
          exact ⟨h, fun _ hq => hq, by simp⟩
        | true =>
          obtain ⟨q, hr, hq, hk, hm, rfl, hc⟩ := removal h.wf hx
          have uniq : ∀ q', Entry w false t v q' → q = q' := by
            intro q' hE
            obtain ⟨u, d, n, h1, rfl, rfl, hn⟩ := visits_good hw hE
            exact resolve_entry h1.at.1 h1.at.2 hn (resolve_less h.less hr)
          refine ⟨h.step hq hm hc (Or.inr ⟨v, ?_⟩), fun q' hq' => ?_, fun _ q' hE => ?_⟩
          · obtain ⟨q', hE⟩ := hL v (by simp)
            rw [uniq q' hE]
            exact hE
          · simp only
            rw [kind_without hq, hq']
            simp
          · rw [← uniq q' hE]
            simp only
            rw [kind_without hq, if_pos rfl]
      have := key _ rfl
      generalize (if Path.isDir w' v then Path.rmdir w' v else Path.remove w' v) = r at this
      obtain ⟨k1, k2, k3⟩ := this
      show ∃ r', (if r.2 then Path.rmdirLoop t ps r.1 else .ok (r.1, false)) = .ok r' ∧ _
      split
      · rename_i hb
        obtain ⟨r', e, i1, i2, i3⟩ := ih L hps (fun v hv => hL v (by simp [hv])) _ k1
        refine ⟨r', e, i1, fun q hq => i2 q (k2 q hq), fun hr' v' hv' q hE => ?_⟩
        rcases List.mem_cons.1 hv' with rfl | hv'
        · exact i2 q (k3 hb q hE)
        · exact i3 hr' v' hv' q hE
      · exact ⟨_, rfl, k1, k2, by simp⟩

theorem walk1_follow {w : World} {q : Fs.Path} (hq : kind w q = some .dir) {r r' : Fs.Path → List Name → Option Fs.Path}
    (hr : ∀ cur cs, r' cur cs = some q → r cur cs = some q) :
    ∀ (cs : List Name) (cur : Fs.Path), walk1 w false r' cur cs = some q → walk1 w true r cur cs = some q := by
  intro cs
  induction cs with
  | nil => intro cur h; exact h
  | cons c cs ih =>
    intro cur hp
    rw [walk1] at hp ⊢
    by_cases h1 : kind w cur ≠ some .dir
    · rw [if_pos h1] at hp; cases hp
    · rw [if_neg h1] at hp ⊢
      by_cases h2 : c = [46]
      · rw [if_pos h2] at hp ⊢; exact ih _ hp
      · rw [if_neg h2] at hp ⊢
        by_cases h3 : c = [46, 46]
        · rw [if_pos h3] at hp ⊢; exact ih _ hp
        · rw [if_neg h3] at hp ⊢
          cases hx : kind w (cur ++ [c]) with
          | none => rw [hx] at hp; exact hp
          | some k =>
            rw [hx] at hp
            cases k with
            | link x =>
              simp only [Bool.true_eq_false, and_false, if_false]
              simp only at hp
              split at hp
              · injection hp with hp
                rw [hp, hq] at hx
                cases hx
              · exact hr _ _ hp
            | dir => exact ih _ hp
            | file b => exact ih _ hp

theorem walk_follow {w : World} {q : Fs.Path} (hq : kind w q = some .dir) : ∀ (l : Nat) (cur : Fs.Path) (cs : List Name),
    walk w false l cur cs = some q → walk w true l cur cs = some q
  | 0, cur, cs, hp => walk1_follow hq (by simp) cs cur hp
  | l + 1, cur, cs, hp => walk1_follow hq (walk_follow hq l) cs cur hp

theorem resolve_follow {w : World} {t : Text} {q : Fs.Path} (h : resolve w false t = some q) (hq : kind w q = some .dir) : resolve w true t = some q := by
  obtain ⟨h0, h1, h2⟩ := resolve_some h
  rw [resolve_eq h0 h1]
  exact walk_follow hq 40 _ _ h2

/-- Everything that is said about the removal in any file system. -/
theorem rmdirRecurse_any {E : Env} {w : World} (hw : Wf w) {z : Mem} {t : Text} (hz : CStr z t) :
    OkOr E (maxPath + 312) (Path.rmdirRecurse E maxPath w z) fun r => Going w r.1 t ∧
      ((∀ u d, Visits w false t u d → w.readable d = true) → ∀ d, resolve w true t = some d → r.2 = true → ∀ n, kind r.1 (d ++ [n]) = none) := by
  have h0 : Going w w t := ⟨hw, ⟨rfl, rfl, fun q => Or.inr rfl⟩, fun q hq => absurd rfl hq⟩
  have top : ∀ d, resolve w true t = some d → (Path.rmdir w t).2 = true → ∀ n, kind (Path.rmdir w t).1 (d ++ [n]) = none := by
    intro d hd hb n
    cases hx : Path.rmdir w t with
    | mk w2 b =>
      rw [hx] at hb
      simp only at hb
      subst hb
      have hg := rmdirTop_any h0
      obtain ⟨p, hr, hp, hk, hm, rfl, hc⟩ := removal hw (b := true) (v := t) (by simpa using hx)
      have hgone := hg.gone p (by rw [hx]; simp only; rw [kind_without hp, if_pos rfl]; exact Ne.symm hk)
      have hkd : kind w p = some .dir := by
        rcases hgone.2.2 with ⟨-, h⟩ | ⟨v, hE⟩
        · exact h
        · by_contra hkd
          -- `rmdir` removes directories only
          have hx2 := congrArg Prod.snd hx
          unfold Path.rmdir at hx2
          split at hx2
          · cases hx2
          · unfold Fs.rmdir at hx2
            rw [hr] at hx2
            simp only [Option.bind_eq_bind, Option.bind_some] at hx2
            rw [if_neg (fun hh => hkd hh.1)] at hx2
            cases hx2
      rw [resolve_follow hr hkd] at hd
      cases hd
      simp only
      rw [kind_without hp, hc n]
      simp
  unfold Path.rmdirRecurse
  rw [hz.text, bind_ok]
  split
  · exact OkOr.ok ⟨h0, by simp⟩
  · refine (C62_any_file_system hw hz false []).bind ?_ (Nat.le_refl _)
    rintro o (⟨rfl, -⟩ | ⟨l, L, rfl, hl, hL, hF⟩)
    · exact OkOr.ok ⟨rmdirTop_any h0, fun _ => top⟩
    · cases l with
      | nil => exact OkOr.ok ⟨rmdirTop_any h0, fun _ => top⟩
      | cons a l =>
        obtain ⟨r, e, hr, -, hgone⟩ := rmdirLoop_any hw (a :: l) L hl hL w h0
        simp only [List.nil_append]
        rw [e]
        refine OkOr.ok ⟨hr, fun ho d hd hb n => ?_⟩
        by_cases hk : kind w (d ++ [n]) = none
        · rcases hr.less.sub (d ++ [n]) with h | h
          · exact h
          · rw [h, hk]
        · have hdir := (parent_dir hw hk).1
          have hE : Entry w false t (t ++ 47 :: n) (d ++ [n]) := ⟨t, d, n, .top hd hdir, rfl, rfl, hk, by simp⟩
          exact hgone hb _ (((hF ho).1 _).2 ⟨_, hE⟩) _ hE

/-- **C63**, in any file system, with links, unreadable directories, paths that are too long, and anything that cannot be removed: the function returns, what it leaves is a
file system in which nothing is new or changed, and whatever is gone was allowed to be removed and is the directory named or an entry of a directory
visited from it. -/
theorem C63_any_file_system {E : Env} {w : World} (hw : Wf w) {z : Mem} {t : Text} (hz : CStr z t) :
    OkOr E (maxPath + 312) (Path.rmdirRecurse E maxPath w z) fun r =>
      Wf r.1 ∧ (∀ q, kind r.1 q = none ∨ kind r.1 q = kind w q) ∧
      (∀ q, kind r.1 q ≠ kind w q → w.mayRemove q = true ∧
        ((resolve w false t = some q ∧ kind w q = some .dir) ∨ ∃ v, Entry w false t v q)) :=
  (rmdirRecurse_any hw hz).mono (fun r ⟨h, _⟩ => ⟨h.wf, h.less.sub, fun q hq => ⟨(h.gone q hq).1, (h.gone q hq).2.2⟩⟩) (Nat.le_refl _)

/-- **C63**: if all directories on the way can be read and the function returns true, nothing is left in the directory, also if there are links. -/
theorem C63_true_means_empty {E : Env} {w : World} (hw : Wf w) {z : Mem} {t : Text} (hz : CStr z t) {d : Fs.Path} (hr : resolve w true t = some d)
    (ho : ∀ u e, Visits w false t u e → w.readable e = true) :
    OkOr E (maxPath + 312) (Path.rmdirRecurse E maxPath w z) fun r => r.2 = true → ∀ rel, rel ≠ [] → kind r.1 (d ++ rel) = none := by
  refine (rmdirRecurse_any hw hz).mono ?_ (Nat.le_refl _)
  rintro r ⟨hg, h⟩ hb rel hrel
  obtain ⟨n, rest, rfl⟩ := List.exists_cons_of_ne_nil hrel
  have hn := h ho d hr hb n
  by_contra hc
  by_cases h0 : rest = []
  · subst h0
    exact hc hn
  · have hc' : kind r.1 ((d ++ [n]) ++ rest) ≠ none := by simpa using hc
    have := (prefix_dir hg.wf rest h0 hc').1
    rw [hn] at this
    cases this

theorem visits_below {w : World} (hw : Wf w) {t u : Text} {d e : Fs.Path} (hr : resolve w true t = some d)
    (hL : ∀ rel x, kind w (d ++ rel) ≠ some (.link x)) (h : Visits w false t u e) : d <+: e := by
  induction h with
  | top h1 h2 =>
    rw [h1] at hr
    cases hr
    exact List.prefix_rfl
  | @sub u d' e n hv hk _ he hke ih =>
    obtain ⟨rel, rfl⟩ := ih
    have hres := resolve_snoc hv.at.1 hv.at.2 (parent_dir hw hk).2 (fun x => by simpa using hL (rel ++ [n]) x) (resolve_some he).2.1 true
    rw [he] at hres
    cases hres
    exact ⟨rel ++ [n], by simp⟩

/-- **C63**: if there are no links below the directory, nothing outside changes, whatever can or cannot be read or removed, and whatever way the directory is named. -/
theorem C63_outside_untouched {E : Env} {w : World} (hw : Wf w) {z : Mem} {t : Text} (hz : CStr z t) {d : Fs.Path} (hr : resolve w true t = some d)
    (hL : ∀ rel x, kind w (d ++ rel) ≠ some (.link x)) :
    OkOr E (maxPath + 312) (Path.rmdirRecurse E maxPath w z) fun r => ∀ q, ¬ d <+: q → kind r.1 q = kind w q := by
  refine (C63_any_file_system hw hz).mono ?_
  rintro r ⟨-, -, h⟩ q hq
  by_contra hc
  rcases (h q hc).2 with ⟨h1, h2⟩ | ⟨v, u, e, n, h1, -, rfl, -, -⟩
  · exact hq (by rw [resolve_follow h1 h2] at hr; cases hr; exact List.prefix_rfl)
  · obtain ⟨rel, rfl⟩ := visits_below hw hr hL h1
    exact hq ⟨rel ++ [n], by simp⟩

/-- Example: in `exLoop` the first path on the list has too many links to be found again, so that nothing is removed. -/
example : (Path.rmdirRecurse exE maxPath exLoop (zstr (chars' "/s"))).mapOk (fun r => (r.1.nodes, r.2)) =
    .ok ([([[115]], .dir), ([[115], [108]], .link (chars' "/s")), ([[115], [102]], .file [1])], false) := by decide +kernel

/-- Example: a link to a file is removed like a file, and the file stays. -/
example : (Path.rmdirRecurse exE maxPath { nodes := [([[102]], .file [1]), ([[115]], .dir), ([[115], [108]], .link (chars' "/f"))] } (zstr (chars' "/s"))).mapOk
    (fun r => (r.1.nodes, r.2)) = .ok ([([[102]], .file [1])], true) := by decide +kernel

end Vita
