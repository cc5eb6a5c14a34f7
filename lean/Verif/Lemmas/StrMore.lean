import Verif.Lemmas.StrStep
/-! More lemmas on the string functions: creation, last occurrences, counting. -/

namespace Vita
open Out Spec

seal wadd wsub wmul

theorem create_okOr {E : Env} {z : Mem} {zs : Text} (hz : CStr z zs) (h0 : zs ≠ []) :
    OkOr E (zs.length + 56) (Str.create E z) fun v => IsStr v zs ∧ v.cap = zs.length ∧ v.slider = 0 := by
  have hp : 0 < zs.length := List.length_pos_iff.2 h0
  have hl := hz.lim
  simp only [Str.create, strlen_ok hz.text, bind_ok]
  refine (createLen_okOr hp (by omega)).bind ?_
  rintro a ⟨ha, hc, hs⟩
  obtain ⟨v', e, s, c, sl⟩ := setN_ok (E := E) ha hz.nz hz.begins (Or.inl hp) (by simp)
  rw [e]
  exact OkOr.ok ⟨s, by rw [c, hc], by rw [sl, hs]⟩

theorem createCapacity_okOr {E : Env} {n : Nat} (h1 : 0 < n) (hn : n < 2 ^ 63) :
    OkOr E (n + 56) (Str.createCapacity E n) fun v => IsStr v [] ∧ v.cap = n ∧ v.slider = 0 := by
  have hd : dassert E (decide (n > 0)) = .ok () := by simp [h1]
  simp only [Str.createCapacity, hd, bind_ok]
  refine (createLen_okOr h1 hn).bind ?_
  rintro a ⟨ha, hc, hs⟩
  obtain ⟨v', e, s, c, sl⟩ := clear_ok ha
  rw [e]
  exact OkOr.ok ⟨s, by rw [c, hc], by rw [sl, hs]⟩

/-! ### Last occurrences -/

theorem lastInstance_ok {m z : Mem} {t zs : Text} (h : scanZ m = .ok t) (hz : scanZ z = .ok zs) (h0 : zs ≠ []) :
    ∀ (k p : Nat), OccursAt t zs p → t.length < k + p →
    Str.lastInstance m z zs.length k p =
      .ok (((positions (t.drop (p + zs.length)) zs).map (p + zs.length + ·)).getLastD p)
  | 0, p, ho, hf => by have := ho.le; omega
  | k + 1, p, ho, hf => by
    have hle := ho.le
    have hp : 0 < zs.length := List.length_pos_iff.2 h0
    rw [Str.lastInstance, strstrAt_ok h hz hle, bind_ok]
    rcases exists_first_or_none (t.drop (p + zs.length)) zs with ⟨q, hq, e⟩ | ⟨hn, e⟩
    · have hoq : OccursAt t zs (p + zs.length + q) := (occursAt_drop hle).1 hq.1
      simp only [e, Option.map_some]
      rw [lastInstance_ok h hz h0 k _ hoq (by omega), positions_first h0 hq]
      simp only [List.map_cons, List.getLastD_cons, List.map_map, List.drop_drop]
      rw [show p + zs.length + (q + zs.length) = p + zs.length + q + zs.length by omega]
      rw [show ((fun x => p + zs.length + x) ∘ fun x => q + zs.length + x) =
        (fun x => p + zs.length + q + zs.length + x) from funext fun x => by simp; omega]
    · simp only [e, Option.map_none]
      rw [positions_none hn]
      rfl

theorem positions_last {zs : Text} (h0 : zs ≠ []) : ∀ (n : Nat) (t : Text) (l : Nat), t.length ≤ n →
    (positions t zs).getLast? = some l →
    OccursAt t zs l ∧ ∀ j, l + zs.length ≤ j → ¬ OccursAt t zs j := by
  intro n
  induction n with
  | zero =>
    intro t l hn h
    have : t = [] := List.length_eq_zero_iff.1 (by omega)
    subst this
    simp [positions, scan] at h
  | succ n ih =>
    intro t l hn h
    have hp : 0 < zs.length := List.length_pos_iff.2 h0
    rcases exists_first_or_none t zs with ⟨i, hi, -⟩ | ⟨hno, -⟩
    · rw [positions_first h0 hi, List.getLast?_cons] at h
      have hle := hi.1.le
      cases hl : (positions (t.drop (i + zs.length)) zs).getLast? with
      | none =>
        rw [List.getLast?_map, hl] at h
        simp only [Option.map_none, Option.getD_none, Option.some.injEq] at h
        subst h
        refine ⟨hi.1, fun j hj ho => ?_⟩
        have hnil : positions (t.drop (i + zs.length)) zs = [] := List.getLast?_eq_none_iff.1 hl
        rcases exists_first_or_none (t.drop (i + zs.length)) zs with ⟨q, hq, -⟩ | ⟨hno, -⟩
        · rw [positions_first h0 hq] at hnil; simp at hnil
        · exact hno ⟨j - (i + zs.length), (occursAt_drop hle).2 (by rwa [Nat.add_sub_cancel' hj])⟩
      | some l' =>
        rw [List.getLast?_map, hl] at h
        simp only [Option.map_some, Option.getD_some, Option.some.injEq] at h
        obtain ⟨h1, h2⟩ := ih (t.drop (i + zs.length)) l' (by simp; omega) hl
        subst h
        refine ⟨(occursAt_drop hle).1 h1, fun j hj ho => ?_⟩
        exact h2 (j - (i + zs.length)) (by omega)
          ((occursAt_drop hle).2 (by rwa [Nat.add_sub_cancel' (by omega)]))
    · rw [positions_none hno] at h
      simp at h

theorem positions_last_isLast {t zs : Text} (h0 : zs ≠ []) (hno : NoOverlap t zs) {l : Nat}
    (h : (positions t zs).getLast? = some l) : IsLast t zs l := by
  obtain ⟨h1, h2⟩ := positions_last h0 t.length t l (Nat.le_refl _) h
  exact ⟨h1, fun j hj ho => h2 j (hno l j h1 ho hj) ho⟩

theorem positions_ne_nil {t zs : Text} (h0 : zs ≠ []) (h : Occurs t zs) : positions t zs ≠ [] := by
  rcases exists_first_or_none t zs with ⟨i, hi, -⟩ | ⟨hno, -⟩
  · rw [positions_first h0 hi]; simp
  · exact absurd h hno

theorem lastInstance_first {m z : Mem} {t zs : Text} (h : scanZ m = .ok t) (hz : scanZ z = .ok zs) (h0 : zs ≠ [])
    {k i l : Nat} (hi : IsFirst t zs i) (hk : t.length < k) (hl : (positions t zs).getLast? = some l) :
    Str.lastInstance m z zs.length k i = .ok l := by
  rw [lastInstance_ok h hz h0 k i hi.1 (by omega)]
  rw [positions_first h0 hi, List.getLast?_cons] at hl
  simp only [Option.some.injEq] at hl
  rw [← hl, List.getLastD_eq_getLast?]

/-! ### Counting -/

theorem countLoop_ok {m z : Mem} {t zs : Text} (h : scanZ m = .ok t) (hz : scanZ z = .ok zs) (h0 : zs ≠ []) :
    ∀ (k p c : Nat), p ≤ t.length → t.length < k + p →
    Str.countLoop m z zs.length k p c = .ok (c + (positions (t.drop p) zs).length)
  | 0, p, c, hp, hf => by omega
  | k + 1, p, c, hp, hf => by
    have hz0 : 0 < zs.length := List.length_pos_iff.2 h0
    rw [Str.countLoop, strstrAt_ok h hz hp, bind_ok]
    rcases exists_first_or_none (t.drop p) zs with ⟨q, hq, e⟩ | ⟨hn, e⟩
    · have hle := ((occursAt_drop hp).1 hq.1).le
      simp only [e, Option.map_some]
      rw [countLoop_ok h hz h0 k _ _ hle (by omega), positions_first h0 hq]
      simp only [List.length_cons, List.length_map, List.drop_drop]
      rw [show p + (q + zs.length) = p + q + zs.length by omega]
      congr 1; omega
    · simp only [e, Option.map_none]
      rw [positions_none hn]
      rfl

theorem canFind_ok {v : Arr} {t zs : Text} (h : IsStr v t) {z : Mem} (hz : CStr z zs) (h0 : zs ≠ [])
    (hl : zs.length ≤ t.length) {k : Nat} (hk : t.length < k) :
    Str.canFind k v z = .ok (positions t zs).length := by
  have he : enforce (decide (zs.length ≤ v.len)) = .ok () := by simp [h.len, hl]
  simp only [Str.canFind, strlen_ok hz.text, bind_ok, he]
  rw [countLoop_ok h.text hz.text h0 k 0 0 (by omega) (by omega)]
  simp

end Vita
