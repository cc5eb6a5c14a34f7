import Verif.Props.PathAny
import Verif.Props.PathText
/-!
# Path texts and the places they name (C133)

`vt_path_build` goes down to an entry of a directory, `vt_path_pop` up to the directory of an entry, `vt_path_basename` gives the name of the entry: in the text, and
in the file system, with links or without.
-/

namespace Vita
open Out Spec Fs
seal wadd wsub wmul

/-- The name of an entry: not empty, without separator, neither `.` nor `..`. -/
structure EntryName (n : Text) : Prop where
  ne : n ≠ []
  sep : 47 ∉ n
  dot : n ≠ [46]
  dotdot : n ≠ [46, 46]

theorem EntryName.of_good {n : Text} (h : GoodName n) : EntryName n := ⟨h.ne, h.sep, h.dot, h.dotdot⟩

theorem EntryName.comps {n : Text} (h : EntryName n) : Fs.comps n = [n] := by
  rw [Fs.comps, compsGo_name h.sep, List.nil_append, if_neg h.ne]

theorem base_append {w : World} {a : Text} (h : a ≠ []) (b : Text) : base w (a ++ b) = base w a := by
  cases a with
  | nil => exact absurd rfl h
  | cons c a => rfl

/-- The converse of `walk1_snoc_entry`. -/
theorem walk1_parent {w : World} {r1 r2 : Fs.Path → List Name → Option Fs.Path} {p : Fs.Path} {n : Name} (hn : n ≠ [46] ∧ n ≠ [46, 46])
    (hr : ∀ cur cs, r2 cur (cs ++ [n]) = some p → ∃ d, r1 cur cs = some d ∧ kind w d = some .dir ∧ p = d ++ [n]) :
    ∀ (cs : List Name) (cur : Fs.Path), walk1 w false r2 cur (cs ++ [n]) = some p → ∃ d, walk1 w true r1 cur cs = some d ∧ kind w d = some .dir ∧ p = d ++ [n] := by
  intro cs
  induction cs with
  | nil =>
    intro cur h
    rw [List.nil_append, walk1] at h
    by_cases hd : kind w cur = some .dir
    · rw [if_neg (by simp [hd]), if_neg hn.1, if_neg hn.2] at h
      refine ⟨cur, rfl, hd, ?_⟩
      split at h
      · simpa using h.symm
      · simpa using h.symm
      · simpa [walk1] using h.symm
    · rw [if_pos hd] at h; cases h
  | cons c cs ih =>
    intro cur h
    rw [List.cons_append, walk1] at h
    rw [walk1]
    by_cases h1 : kind w cur ≠ some .dir
    · rw [if_pos h1] at h; cases h
    · rw [if_neg h1] at h ⊢
      by_cases h2 : c = [46]
      · rw [if_pos h2] at h ⊢; exact ih _ h
      · rw [if_neg h2] at h ⊢
        by_cases h3 : c = [46, 46]
        · rw [if_pos h3] at h ⊢; exact ih _ h
        · rw [if_neg h3] at h ⊢
          cases hx : kind w (cur ++ [c]) with
          | none =>
            rw [hx] at h
            simp at h
          | some k =>
            rw [hx] at h
            cases k with
            | link x =>
              simp only [List.append_eq_nil_iff, List.cons_ne_nil, and_false, false_and, if_false] at h
              simp only [Bool.true_eq_false, and_false, if_false]
              rw [← List.append_assoc] at h
              exact hr _ _ h
            | dir => exact ih _ h
            | file b => exact ih _ h

theorem walk_parent {w : World} {p : Fs.Path} {n : Name} (hn : n ≠ [46] ∧ n ≠ [46, 46]) :
    ∀ (l : Nat) (cs : List Name) (cur : Fs.Path), walk w false l cur (cs ++ [n]) = some p →
      ∃ d, walk w true l cur cs = some d ∧ kind w d = some .dir ∧ p = d ++ [n]
  | 0, cs, cur, h => walk1_parent hn (by simp) cs cur h
  | l + 1, cs, cur, h => walk1_parent hn (fun cur cs => walk_parent hn l cs cur) cs cur h

/-- The text `a/n` names the entry `p` exactly if `a` names a directory and `p` is its entry `n`; links on the way are followed. -/
theorem resolve_child {w : World} {a n : Text} (ha : a ≠ []) (hn : EntryName n) (hl : (a ++ 47 :: n).length < maxPath) {p : Fs.Path} :
    resolve w false (a ++ 47 :: n) = some p ↔ ∃ d, resolve w true a = some d ∧ kind w d = some .dir ∧ p = d ++ [n] := by
  have hla : a.length < maxPath := by simp only [List.length_append, List.length_cons] at hl; omega
  rw [resolve_eq (by simp) hl, resolve_eq ha hla, base_append ha, comps_sep, hn.comps]
  constructor
  · exact walk_parent ⟨hn.dot, hn.dotdot⟩ 40 _ _
  · rintro ⟨d, h1, h2, rfl⟩
    exact walk_snoc_entry h2 ⟨hn.dot, hn.dotdot⟩ 40 _ _ h1

theorem joinWith_two (a b : Text) : joinWith [47] [a, b] = a ++ 47 :: b := by simp [joinWith]

/-- **C133**: the text that `vt_path_build` makes of a directory and the name of an entry names that entry, whatever links the text of the directory leads through.
`vt_path_pop` of it is the directory again, `vt_path_basename` the name. -/
theorem C133_build {E : Env} {w : World} {za zn : Mem} {a n : Text} (hza : CStr za a) (hzn : CStr zn n) (hn : EntryName n) {d : Fs.Path}
    (hr : resolve w true a = some d) (hd : kind w d = some .dir) (hl : (a ++ 47 :: n).length < maxPath) :
    OkOr E (a.length + n.length + 73) (Path.build E none [za, zn]) fun v => IsStr v (a ++ 47 :: n) ∧
      resolve w false (a ++ 47 :: n) = some (d ++ [n]) ∧
      ((∀ x, kind w (d ++ [n]) ≠ some (.link x)) → stat w (a ++ 47 :: n) = kind w (d ++ [n])) ∧
      (∃ z', Path.pop v.mem = .ok z' ∧ CStr z' a) ∧
      ∀ k, (a ++ 47 :: n).length < k → OkOr E (a.length + n.length + 57) (Path.basename E k none v.mem) fun r => ∃ b, r = some b ∧ IsStr b n := by
  have ha : a ≠ [] := (resolve_some hr).1
  refine ((C60_build (E := E) (ps := [za, zn]) (ts := [a, n]) (.cons hza (.cons hzn .nil)) (by simp [ha, hn.ne]) (by simp)).2.mono (B := (joinWith [47] [a, n]).length + 72) ?_ (Nat.le_refl _)).le ?_
  · rw [joinWith_two]
    intro v hv
    have hc : CStr v.mem (a ++ 47 :: n) := hv.cstr
    refine ⟨hv, (resolve_child ha hn hl).2 ⟨d, hr, hd, rfl⟩, fun hk => ?_, ?_, fun k hk => ?_⟩
    · have hla := (resolve_some hr).2.1
      have h2 : resolve w true (a ++ 47 :: n) = some (d ++ [n]) := by
        rw [resolve_eq (by simp) hl, base_append ha, comps_sep, hn.comps]
        exact walk_snoc hd ⟨hn.dot, hn.dotdot⟩ hk 40 _ _ (resolve_some hr).2.2
      refine stat_of h2 ?_
      rw [List.getLast?_append, List.getLast?_cons]
      obtain ⟨m, x, rfl⟩ := List.eq_nil_or_concat n |>.resolve_left hn.ne
      have := hn.sep
      simp at this ⊢
      exact fun e => this.2 e.symm
    · obtain ⟨z', h1, h2, -⟩ := (C58_pop_partial hc (by simp)).2 a n rfl hn.sep
      exact ⟨z', h1, h2⟩
    · exact (C59_basename_partial hc hn.sep ha hn.ne hk (s := none) (by simp)).le (by simp [capOf]; omega)
  · rw [joinWith_two]; simp; omega

theorem joinWith_append {ts us : List Text} (ht : ts ≠ []) (hu : us ≠ []) : joinWith [47] (ts ++ us) = joinWith [47] ts ++ 47 :: joinWith [47] us := by
  induction ts with
  | nil => exact absurd rfl ht
  | cons a ts ih =>
    cases ts with
    | nil =>
      cases us with
      | nil => exact absurd rfl hu
      | cons u us => simp [joinWith]
    | cons b ts =>
      have := ih (by simp)
      simp only [List.cons_append, joinWith] at this ⊢
      rw [this]
      simp

/-- **C133**: a path built in two steps is the path built at once. -/
theorem C133_build_steps {E : Env} {ps qs : List Mem} {ts us : List Text} (hp : List.Forall₂ CStr ps ts) (hq : List.Forall₂ CStr qs us)
    (ht : ∀ x ∈ ts, x ≠ []) (hu : ∀ x ∈ us, x ≠ []) (ht0 : ts ≠ []) (hu0 : us ≠ []) :
    OkOr E ((joinWith [47] (ts ++ us)).length + 72) (Path.build E none (ps ++ qs)) (fun v => IsStr v (joinWith [47] (ts ++ us))) ∧
    OkOr E ((joinWith [47] (ts ++ us)).length + 72) (Path.build E none ps >>= fun v => Path.build E none (v.mem :: qs))
      (fun v => IsStr v (joinWith [47] (ts ++ us))) := by
  refine ⟨(C60_build (List.rel_append hp hq) (fun x hx => ?_) (by simp [ht0])).2, ?_⟩
  · rcases List.mem_append.1 hx with h | h
    · exact ht x h
    · exact hu x h
  · have hne : joinWith [47] ts ≠ [] := by
      cases ts with
      | nil => exact absurd rfl ht0
      | cons a ts =>
        have := ht a (by simp)
        cases ts <;> simp [joinWith, this]
    have e : joinWith [47] (joinWith [47] ts :: us) = joinWith [47] (ts ++ us) := by
      rw [joinWith_append ht0 hu0]
      cases us with
      | nil => exact absurd rfl hu0
      | cons u us => simp [joinWith]
    have hle : (joinWith [47] ts).length + 72 ≤ (joinWith [47] (ts ++ us)).length + 72 := by
      rw [joinWith_append ht0 hu0]; simp
    refine (C60_build (E := E) hp ht ht0).2.bind (fun v hv => ?_) hle
    have := (C60_build (E := E) (ps := v.mem :: qs) (ts := joinWith [47] ts :: us) (.cons hv.cstr hq) (by
      intro x hx
      rcases List.mem_cons.1 hx with rfl | hx
      · exact hne
      · exact hu x hx) (by simp)).2
    rwa [e] at this

/-- **C133**: `vt_path_pop` goes up: if a text names an entry of a directory by its name, what remains names the directory.  In every file system, links on the way
included; the entry itself need not exist and may be a link. -/
theorem C133_pop {w : World} {z : Mem} {a n : Text} (hz : CStr z (a ++ 47 :: n)) (ha : a ≠ []) (hn : EntryName n) {p : Fs.Path}
    (hp : resolve w false (a ++ 47 :: n) = some p) :
    ∃ z', Path.pop z = .ok z' ∧ CStr z' a ∧ p ≠ [] ∧ p.getLast? = some n ∧ resolve w true a = some p.dropLast ∧ stat w a = some .dir := by
  obtain ⟨z', h1, h2, -⟩ := (C58_pop_partial hz (by simp)).2 a n rfl hn.sep
  obtain ⟨d, g1, g2, rfl⟩ := (resolve_child ha hn (resolve_some hp).2.1).1 hp
  exact ⟨z', h1, h2, by simp, by simp, by simpa using g1, stat_dir g1 g2⟩

/-- `vt_path_pop`, `k` times. -/
def popTimes : Nat → Mem → Out Mem
  | 0, z => .ok z
  | k + 1, z => Path.pop z >>= popTimes k

theorem popTimes_last : ∀ {k : Nat} {z z' : Mem}, popTimes k z = .ok z' → popTimes (k + 1) z = Path.pop z'
  | 0, z, z', h => by
    rw [popTimes, Out.ok.injEq] at h
    subst h
    rw [popTimes]
    cases Path.pop z <;> rfl
  | k + 1, z, z', h => by
    rw [popTimes] at h
    obtain ⟨y, h1, h2⟩ := bind_eq_ok.1 h
    rw [popTimes, h1, bind_ok]
    exact popTimes_last h2

/-- **C133**: one `vt_path_pop` for each name leads back to where the names began. -/
theorem C133_climb {a : Text} : ∀ {ns : List Text}, (∀ n ∈ ns, 47 ∉ n) → ∀ {z : Mem}, CStr z (render a ns) → ∀ {k : Nat}, k ≤ ns.length →
    ∃ z', popTimes k z = .ok z' ∧ CStr z' (render a (ns.take (ns.length - k))) := by
  intro ns hns z hz k
  induction k with
  | zero => intro _; exact ⟨z, rfl, by simpa using hz⟩
  | succ k ih =>
    intro hk
    obtain ⟨z', h1, h2⟩ := ih (by omega)
    have hlt : ns.length - (k + 1) < ns.length := by omega
    have e : ns.take (ns.length - k) = ns.take (ns.length - (k + 1)) ++ [ns[ns.length - (k + 1)]] := by
      rw [show ns.length - k = ns.length - (k + 1) + 1 by omega, List.take_succ_eq_append_getElem hlt]
    have e2 : render a (ns.take (ns.length - k)) = render a (ns.take (ns.length - (k + 1))) ++ 47 :: ns[ns.length - (k + 1)] := by
      rw [e]
      simp only [render, List.map_append, List.map_cons, List.map_nil, List.flatten_append, List.flatten_cons, List.flatten_nil, List.append_nil, List.append_assoc]
    rw [e2] at h2
    obtain ⟨z2, g1, g2, -⟩ := (C58_pop_partial h2 (by simp)).2 _ _ rfl (hns _ (List.getElem_mem hlt))
    exact ⟨z2, by rw [popTimes_last h1, g1], g2⟩

theorem exists_of_forall₂ {R : α → β → Prop} {l : List α} {L : List β} (h : List.Forall₂ R l L) : ∀ a ∈ l, ∃ b ∈ L, R a b := by
  induction h with
  | nil => intro a ha; cases ha
  | cons h _ ih =>
    intro a ha
    rcases List.mem_cons.1 ha with rfl | ha
    · exact ⟨_, by simp, h⟩
    · obtain ⟨b, hb, hr⟩ := ih a ha
      exact ⟨b, by simp [hb], hr⟩

/-- **C133**: whatever `vt_path_dir_list_recurse` lists, in any file system: `vt_path_pop` of the text names the directory that has the entry, and
`vt_path_basename` of it is the name that the entry has there. -/
theorem C133_listing {E : Env} {w : World} (hw : Wf w) {z : Mem} {t : Text} (hz : CStr z t) (ign : Bool) (pl : List Arr) :
    OkOr E (maxPath + 312) (Path.dirListRecurse E w ign maxPath pl z) fun r => r = none ∨ ∃ l, r = some (pl ++ l) ∧ ∀ v ∈ l, ∃ u d n, IsStr v (u ++ 47 :: n) ∧
      kind w (d ++ [n]) ≠ none ∧ (∃ z', Path.pop v.mem = .ok z' ∧ CStr z' u) ∧ resolve w true u = some d ∧ kind w d = some .dir ∧
      ∀ k, (u ++ 47 :: n).length < k → OkOr E (u.length + n.length + 57) (Path.basename E k none v.mem) fun r => ∃ b, r = some b ∧ IsStr b n := by
  refine (C62_any_file_system hw hz ign pl).mono fun r hr => ?_
  rcases hr with ⟨h, -⟩ | ⟨l, L, hr, hl, hv, -⟩
  · exact .inl h
  · refine .inr ⟨l, hr, fun v hm => ?_⟩
    obtain ⟨x, hx, hs⟩ := exists_of_forall₂ hl v hm
    obtain ⟨q, hq⟩ := hv x hx
    have hk : kind w q ≠ none := by obtain ⟨_, _, _, _, _, _, h, _⟩ := hq; exact h
    obtain ⟨u, d, n, h1, rfl, rfl, hn⟩ := visits_good hw hq
    have hc : CStr v.mem (u ++ 47 :: n) := hs.cstr
    obtain ⟨z', g1, g2, -⟩ := (C58_pop_partial hc (by simp)).2 u n rfl hn.sep
    refine ⟨u, d, n, hs, hk, ⟨z', g1, g2⟩, h1.at.1, h1.at.2, fun k hkl => ?_⟩
    exact (C59_basename_partial hc hn.sep (resolve_some h1.at.1).1 hn.ne hkl (s := none) (by simp)).le (by simp [capOf]; omega)

/-! ### Where it does not -/

/-- **C133** (exceptions) Of an entry of the root directory nothing remains, and the empty text names nothing; a relative path of one name remains as it is; a
separator at the end is all that is taken off, which leaves the same place; of a path ending in `..` the text without it remains, not the directory above. -/
theorem C133_pop_exceptions {w : World} :
    (∀ z n, CStr z (47 :: n) → 47 ∉ n → ∃ z', Path.pop z = .ok z' ∧ CStr z' [] ∧ ∀ f, resolve w f [] = none) ∧
    (∀ z n, CStr z n → EntryName n → Path.pop z = .ok z) ∧
    (∀ z a, CStr z (a ++ [47]) → a ≠ [] → (a ++ [47]).length < maxPath → ∃ z', Path.pop z = .ok z' ∧ CStr z' a ∧ ∀ f, resolve w f (a ++ [47]) = resolve w f a) ∧
    (∀ z a, CStr z (a ++ [47, 46, 46]) → ∃ z', Path.pop z = .ok z' ∧ CStr z' a) := by
  refine ⟨fun z n hz hn => ?_, fun z n hz hn => (C58_pop_partial hz hn.ne).1 hn.sep, fun z a hz ha hl => ?_, fun z a hz => ?_⟩
  · obtain ⟨z', h1, h2, -⟩ := (C58_pop_partial hz (by simp)).2 [] n rfl hn
    exact ⟨z', h1, h2, fun f => by simp [resolve]⟩
  · obtain ⟨z', h1, h2, -⟩ := (C58_pop_partial hz (by simp)).2 a [] rfl (by simp)
    refine ⟨z', h1, h2, fun f => ?_⟩
    have hla : a.length < maxPath := by simp only [List.length_append, List.length_cons] at hl; omega
    rw [resolve_eq (by simp) hl, resolve_eq ha hla, base_append ha, comps_sep]
    simp [comps, compsGo]
  · obtain ⟨z', h1, h2, -⟩ := (C58_pop_partial hz (by simp)).2 a [46, 46] rfl (by decide)
    exact ⟨z', h1, h2⟩

/-- Example: in `exLoop` the text `/s/l/f` leads through a link to the entry `f` of `/s`; without its last name it leads to `/s`. -/
example : resolve exLoop false (chars' "/s/l/f") = some [[115], [102]] ∧ resolve exLoop true (chars' "/s/l") = some [[115]] ∧
    (Path.pop (zstr (chars' "/s/l/f"))).mapOk scanZ = .ok (.ok (chars' "/s/l")) ∧
    (popTimes 2 (zstr (chars' "/s/l/f"))).mapOk scanZ = .ok (.ok (chars' "/s")) ∧
    (Path.build exE none [zstr (chars' "/s/l"), zstr [102]]).mapOk Str.z = .ok (.ok (chars' "/s/l/f")) := by decide +kernel

example : EntryName [102] := ⟨by decide, by decide, by decide, by decide⟩

/-- Example: `/s/l/..` leads to the root directory; what remains of it leads to `/s`, which is below. -/
example : resolve exLoop true (chars' "/s/l/..") = some [] ∧ resolve exLoop true (chars' "/s/l") = some [[115]] := by decide +kernel

end Vita
