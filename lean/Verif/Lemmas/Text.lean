import Verif.Base.CStr
import Verif.Spec.Text
import Verif.Lemmas.Mem
import Mathlib.Tactic.Push
/-! Lemmas about NUL-terminated text and substring search. -/

namespace Vita
open Out Spec

/-- Reading text: exactly the memory that consists of the characters, a NUL, and anything. -/
theorem scanZ_eq_ok {m : Mem} {t : List UInt8} :
    scanZ m = .ok t ↔ (∃ rest, m = t.map some ++ some 0 :: rest) ∧ 0 ∉ t := by
  induction m generalizing t with
  | nil => simp [scanZ]
  | cons x m ih =>
    cases x with
    | none => cases t <;> simp [scanZ]
    | some c =>
      by_cases hc : c = 0
      · subst hc
        cases t with
        | nil => simp [scanZ]
        | cons d t => simp [scanZ]; intro h; simp [h]
      · cases t with
        | nil => simp [scanZ, hc]
        | cons d t =>
          simp only [scanZ, hc, if_false, bind_eq_ok, ih]
          constructor
          · rintro ⟨a, ⟨⟨rest, rfl⟩, h0⟩, h2⟩
            simp only [ok.injEq, List.cons.injEq] at h2
            obtain ⟨rfl, rfl⟩ := h2
            refine ⟨⟨rest, by simp⟩, ?_⟩
            simp only [List.mem_cons, not_or]
            exact ⟨fun h => hc h.symm, h0⟩
          · rintro ⟨⟨rest, h⟩, h0⟩
            simp only [List.map_cons, List.cons_append, List.cons.injEq, Option.some.injEq] at h
            obtain ⟨rfl, rfl⟩ := h
            refine ⟨t, ⟨⟨rest, rfl⟩, fun h => h0 (by simp [h])⟩, rfl⟩

theorem scanZ_append {t : List UInt8} {rest : Mem} (h : 0 ∉ t) :
    scanZ (t.map some ++ some 0 :: rest) = .ok t := scanZ_eq_ok.2 ⟨⟨rest, rfl⟩, h⟩

theorem scanZ_length {m : Mem} {t : List UInt8} (h : scanZ m = .ok t) : t.length < m.length := by
  obtain ⟨⟨rest, rfl⟩, -⟩ := scanZ_eq_ok.1 h
  simp

theorem strlen_ok {m : Mem} {t : List UInt8} (h : scanZ m = .ok t) : strlen m = .ok t.length := by
  simp [strlen, h]

/-- A pointer into the middle of a text reads the rest of the text. -/
theorem scanZ_drop {m : Mem} {t : List UInt8} (h : scanZ m = .ok t) {i : Nat} (hi : i ≤ t.length) :
    scanZ (m.drop i) = .ok (t.drop i) := by
  obtain ⟨⟨rest, rfl⟩, h0⟩ := scanZ_eq_ok.1 h
  refine scanZ_eq_ok.2 ⟨⟨rest, ?_⟩, fun h => h0 (List.mem_of_mem_drop h)⟩
  rw [List.drop_append_of_le_length (by simpa using hi), List.map_drop]

theorem cstrAt_ok {m : Mem} {t : List UInt8} (h : scanZ m = .ok t) {i : Nat} (hi : i ≤ t.length) :
    cstrAt m i = .ok (t.drop i) := by
  have := scanZ_length h
  rw [cstrAt, if_pos (by omega), scanZ_drop h hi]

theorem strlenAt_ok {m : Mem} {t : List UInt8} (h : scanZ m = .ok t) {i : Nat} (hi : i ≤ t.length) :
    strlenAt m i = .ok (t.length - i) := by
  simp [strlenAt, cstrAt_ok h hi]

theorem strstrAt_ok {m z : Mem} {t zs : List UInt8} (h : scanZ m = .ok t) (hz : scanZ z = .ok zs)
    {i : Nat} (hi : i ≤ t.length) :
    strstrAt m i z = .ok ((findSub (t.drop i) zs).map (i + ·)) := by
  simp [strstrAt, cstrAt_ok h hi, hz]

theorem getc_text {m : Mem} {t : List UInt8} (h : scanZ m = .ok t) {i : Nat} (hi : i < t.length) :
    getc m i = .ok t[i] := by
  obtain ⟨⟨rest, rfl⟩, -⟩ := scanZ_eq_ok.1 h
  simp [getc, List.getElem?_append_left, hi]

theorem getc_end {m : Mem} {t : List UInt8} (h : scanZ m = .ok t) : getc m t.length = .ok 0 := by
  obtain ⟨⟨rest, rfl⟩, -⟩ := scanZ_eq_ok.1 h
  simp [getc]

/-! ## Occurrences -/

theorem occursAt_iff {t sub : Text} {i : Nat} :
    OccursAt t sub i ↔ i ≤ t.length ∧ sub <+: t.drop i := by
  constructor
  · rintro ⟨a, b, rfl, rfl⟩
    simp
  · rintro ⟨hi, b, hb⟩
    refine ⟨t.take i, b, ?_, by simp [hi]⟩
    rw [List.append_assoc, hb, List.take_append_drop]

theorem Spec.OccursAt.le {t sub : Text} {i : Nat} (h : OccursAt t sub i) : i + sub.length ≤ t.length := by
  obtain ⟨a, b, rfl, rfl⟩ := h
  simp

theorem Spec.OccursAt.eq {t sub : Text} {i : Nat} (h : OccursAt t sub i) :
    t = t.take i ++ sub ++ t.drop (i + sub.length) := by
  obtain ⟨a, b, rfl, rfl⟩ := h
  simp [List.append_assoc]

theorem occursAt_drop {t sub : Text} {i j : Nat} (hi : i ≤ t.length) :
    OccursAt (t.drop i) sub j ↔ OccursAt t sub (i + j) := by
  rw [occursAt_iff, occursAt_iff, List.drop_drop, List.length_drop]
  constructor <;> rintro ⟨h1, h2⟩ <;> exact ⟨by omega, h2⟩

theorem occurs_iff_infix {t sub : Text} : Occurs t sub ↔ sub <:+: t := by
  constructor
  · rintro ⟨i, a, b, rfl, -⟩
    exact ⟨a, b, rfl⟩
  · rintro ⟨a, b, rfl⟩
    exact ⟨a.length, a, b, rfl, rfl⟩

theorem occursAt_cons_succ {c : UInt8} {t sub : Text} {i : Nat} :
    OccursAt (c :: t) sub (i + 1) ↔ OccursAt t sub i := by
  rw [occursAt_iff, occursAt_iff]; simp

theorem occursAt_zero {t sub : Text} : OccursAt t sub 0 ↔ sub <+: t := by
  rw [occursAt_iff]; simp

theorem findSub_some {t sub : Text} {i : Nat} : findSub t sub = some i ↔ IsFirst t sub i := by
  induction t generalizing i with
  | nil =>
    simp only [findSub]
    constructor
    · intro h
      split at h
      · rename_i hs
        subst hs
        simp only [Option.some.injEq] at h
        subst h
        exact ⟨⟨[], [], rfl, rfl⟩, by simp⟩
      · simp at h
    · rintro ⟨h, h2⟩
      have := h.le
      simp only [List.length_nil] at this
      have hs : sub = [] := List.eq_nil_of_length_eq_zero (by omega)
      simp [hs]; omega
  | cons c t ih =>
    simp only [findSub]
    by_cases hp : sub.isPrefixOf (c :: t) = true
    · rw [if_pos hp]
      have h0 : OccursAt (c :: t) sub 0 := occursAt_zero.2 (List.isPrefixOf_iff_prefix.1 hp)
      constructor
      · intro h
        simp only [Option.some.injEq] at h
        subst h
        exact ⟨h0, by simp⟩
      · rintro ⟨h1, h2⟩
        rcases Nat.eq_zero_or_pos i with rfl | hpos
        · rfl
        · exact absurd h0 (h2 0 hpos)
    · rw [if_neg hp]
      have h0 : ¬ OccursAt (c :: t) sub 0 := fun h =>
        hp (List.isPrefixOf_iff_prefix.2 (occursAt_zero.1 h))
      cases i with
      | zero =>
        constructor
        · intro h
          simp at h
        · intro h; exact absurd h.1 h0
      | succ i =>
        simp only [Option.map_eq_some_iff, Nat.add_right_cancel_iff, exists_eq_right]
        rw [ih]
        constructor
        · rintro ⟨h1, h2⟩
          refine ⟨occursAt_cons_succ.2 h1, ?_⟩
          intro j hj hc
          cases j with
          | zero => exact h0 hc
          | succ j => exact h2 j (by omega) (occursAt_cons_succ.1 hc)
        · rintro ⟨h1, h2⟩
          exact ⟨occursAt_cons_succ.1 h1, fun j hj hc => h2 (j + 1) (by omega) (occursAt_cons_succ.2 hc)⟩

theorem findSub_none {t sub : Text} : findSub t sub = none ↔ ¬ Occurs t sub := by
  induction t with
  | nil =>
    simp only [findSub]
    by_cases hs : sub = []
    · subst hs
      simp only [if_true]
      constructor
      · simp
      · intro h; exact absurd ⟨0, [], [], rfl, rfl⟩ h
    · simp only [hs, if_false, true_iff]
      rintro ⟨i, h⟩
      have := h.le
      simp only [List.length_nil] at this
      exact hs (List.eq_nil_of_length_eq_zero (by omega))
  | cons c t ih =>
    simp only [findSub]
    by_cases hp : sub.isPrefixOf (c :: t) = true
    · rw [if_pos hp]
      have h0 : OccursAt (c :: t) sub 0 := occursAt_zero.2 (List.isPrefixOf_iff_prefix.1 hp)
      simp only [reduceCtorEq, false_iff, not_not]
      exact ⟨0, h0⟩
    · rw [if_neg hp]
      have h0 : ¬ OccursAt (c :: t) sub 0 := fun h =>
        hp (List.isPrefixOf_iff_prefix.2 (occursAt_zero.1 h))
      simp only [Option.map_eq_none_iff, ih]
      constructor
      · rintro h ⟨i, hi⟩
        cases i with
        | zero => exact h0 hi
        | succ i => exact h ⟨i, occursAt_cons_succ.1 hi⟩
      · rintro h ⟨i, hi⟩
        exact h ⟨i + 1, occursAt_cons_succ.2 hi⟩

theorem Spec.IsFirst.unique {t sub : Text} {i j : Nat} (h1 : IsFirst t sub i) (h2 : IsFirst t sub j) : i = j := by
  rcases Nat.lt_trichotomy i j with h | h | h
  · exact absurd h1.1 (h2.2 _ h)
  · exact h
  · exact absurd h2.1 (h1.2 _ h)

theorem exists_first_or_none (t sub : Text) :
    (∃ i, IsFirst t sub i ∧ findSub t sub = some i) ∨ (¬ Occurs t sub ∧ findSub t sub = none) := by
  cases h : findSub t sub with
  | none => right; exact ⟨findSub_none.1 h, rfl⟩
  | some i => left; exact ⟨i, findSub_some.1 h, rfl⟩

/-! ## The left-to-right walk -/

theorem isPrefixOf_false_of {t sub : Text} {i : Nat} (h : IsFirst t sub (i + 1)) : sub.isPrefixOf t = false := by
  rw [Bool.eq_false_iff]
  intro hp
  exact h.2 0 (by omega) (occursAt_zero.2 (List.isPrefixOf_iff_prefix.1 hp))

theorem isFirst_tail {c : UInt8} {t sub : Text} {i : Nat} (h : IsFirst (c :: t) sub (i + 1)) :
    IsFirst t sub i :=
  ⟨occursAt_cons_succ.1 h.1, fun j hj hc => h.2 (j + 1) (by omega) (occursAt_cons_succ.2 hc)⟩

theorem replGo_skip {sub r : Text} : ∀ (k : Nat) (t : Text), replGo sub r t k = replGo sub r (t.drop k) 0
  | 0, t => by simp
  | k + 1, [] => by simp [replGo]
  | k + 1, c :: t => by simp [replGo, replGo_skip k t]

theorem scan_skip {sub : Text} : ∀ (s : Nat) (t : Text) (k : Nat),
    scan sub t k s = scan sub (t.drop s) (k + s) 0
  | 0, t, k => by simp
  | s + 1, [], k => by simp [scan]
  | s + 1, c :: t, k => by
    simp only [scan, List.drop_succ_cons]
    rw [scan_skip s t]
    congr 1; omega

theorem piecesGo_skip {sep : Text} : ∀ (s : Nat) (t : Text) (cur : Text),
    piecesGo sep t s cur = piecesGo sep (t.drop s) 0 cur
  | 0, t, cur => by simp
  | s + 1, [], cur => by simp [piecesGo]
  | s + 1, c :: t, cur => by simp [piecesGo, piecesGo_skip s t]

theorem scan_shift {sub : Text} : ∀ (t : Text) (k s : Nat),
    scan sub t k s = (scan sub t 0 s).map (k + ·)
  | [], k, s => by simp [scan]
  | c :: t, k, s + 1 => by
    simp only [scan]
    rw [scan_shift t (k + 1), scan_shift t (0 + 1)]
    simp only [List.map_map]
    congr 1; funext x; simp; omega
  | c :: t, k, 0 => by
    simp only [scan]
    rw [scan_shift t (k + 1), scan_shift t (0 + 1)]
    rw [scan_shift t (k + 1), scan_shift t (0 + 1)]
    split
    · simp only [List.map_cons, List.map_map]
      congr 1; congr 1; funext x; simp; omega
    · simp only [List.map_map]
      congr 1; funext x; simp; omega

theorem replaceAll_none {sub r : Text} : ∀ {t : Text}, ¬ Occurs t sub → replaceAll t sub r = t
  | [], _ => by simp [replaceAll, replGo]
  | c :: t, h => by
    have hp : ¬ sub.isPrefixOf (c :: t) = true := fun hp =>
      h ⟨0, occursAt_zero.2 (List.isPrefixOf_iff_prefix.1 hp)⟩
    have ht : ¬ Occurs t sub := fun ⟨i, hi⟩ => h ⟨i + 1, occursAt_cons_succ.2 hi⟩
    have := replaceAll_none (r := r) ht
    simp only [replaceAll] at this ⊢
    simp only [replGo, if_neg hp, this]

theorem replaceAll_first {sub r : Text} (hs : sub ≠ []) : ∀ {t : Text} {i : Nat}, IsFirst t sub i →
    replaceAll t sub r = t.take i ++ r ++ replaceAll (t.drop (i + sub.length)) sub r
  | [], i, h => by
    have := h.1.le
    simp only [List.length_nil] at this
    exact absurd (List.eq_nil_of_length_eq_zero (by omega)) hs
  | c :: t, 0, h => by
    have hp : sub.isPrefixOf (c :: t) = true := List.isPrefixOf_iff_prefix.2 (occursAt_zero.1 h.1)
    have hl : 0 < sub.length := List.length_pos_iff.2 hs
    simp only [replaceAll, replGo, if_pos hp, List.take_zero, List.nil_append, Nat.zero_add]
    rw [replGo_skip]
    congr 1
    obtain ⟨n, hn⟩ : ∃ n, sub.length = n + 1 := ⟨sub.length - 1, by omega⟩
    simp [hn]
  | c :: t, i + 1, h => by
    have hp : ¬ sub.isPrefixOf (c :: t) = true := by rw [isPrefixOf_false_of h]; simp
    have := replaceAll_first (r := r) hs (isFirst_tail h)
    simp only [replaceAll] at this ⊢
    rw [replGo, if_neg hp, this]
    simp only [List.take_succ_cons, List.cons_append]
    congr 2
    rw [Nat.add_right_comm, List.drop_succ_cons]

theorem positions_none {sub : Text} : ∀ {t : Text}, ¬ Occurs t sub → positions t sub = []
  | [], _ => by simp [positions, scan]
  | c :: t, h => by
    have hp : ¬ sub.isPrefixOf (c :: t) = true := fun hp =>
      h ⟨0, occursAt_zero.2 (List.isPrefixOf_iff_prefix.1 hp)⟩
    have ht : ¬ Occurs t sub := fun ⟨i, hi⟩ => h ⟨i + 1, occursAt_cons_succ.2 hi⟩
    have := positions_none ht
    simp only [positions] at this ⊢
    rw [scan, if_neg hp, scan_shift, this]; rfl

theorem positions_first {sub : Text} (hs : sub ≠ []) : ∀ {t : Text} {i : Nat}, IsFirst t sub i →
    positions t sub = i :: (positions (t.drop (i + sub.length)) sub).map (i + sub.length + ·)
  | [], i, h => by
    have := h.1.le
    simp only [List.length_nil] at this
    exact absurd (List.eq_nil_of_length_eq_zero (by omega)) hs
  | c :: t, 0, h => by
    have hp : sub.isPrefixOf (c :: t) = true := List.isPrefixOf_iff_prefix.2 (occursAt_zero.1 h.1)
    have hl : 0 < sub.length := List.length_pos_iff.2 hs
    simp only [positions, scan, if_pos hp, Nat.zero_add]
    rw [scan_skip, scan_shift]
    obtain ⟨n, hn⟩ : ∃ n, sub.length = n + 1 := ⟨sub.length - 1, by omega⟩
    simp only [hn, Nat.add_sub_cancel, List.drop_succ_cons]
    congr 2; funext x; omega
  | c :: t, i + 1, h => by
    have hp : ¬ sub.isPrefixOf (c :: t) = true := by rw [isPrefixOf_false_of h]; simp
    have := positions_first hs (isFirst_tail h)
    simp only [positions] at this ⊢
    rw [scan, if_neg hp, scan_shift, this]
    simp only [List.map_cons, List.map_map]
    have e : i + 1 + sub.length = (i + sub.length) + 1 := by omega
    rw [e, List.drop_succ_cons]
    congr 1
    · omega
    · congr 1; funext x; simp; omega

theorem pieces_acc {sep : Text} : ∀ (t cur : Text), ∃ a l, piecesGo sep t 0 [] = a :: l ∧
    piecesGo sep t 0 cur = (cur ++ a) :: l
  | [], cur => ⟨[], [], by simp [piecesGo], by simp [piecesGo]⟩
  | c :: t, cur => by
    by_cases hp : sep.isPrefixOf (c :: t) = true
    · exact ⟨[], _, by simp only [piecesGo, if_pos hp]; rfl, by simp only [piecesGo, if_pos hp, List.append_nil]⟩
    · obtain ⟨a, l, h1, h2⟩ := pieces_acc t (cur ++ [c])
      obtain ⟨a', l', h1', h2'⟩ := pieces_acc (sep := sep) t ([] ++ [c])
      rw [h1] at h1'
      simp only [List.cons.injEq] at h1'
      obtain ⟨rfl, rfl⟩ := h1'
      refine ⟨c :: a, l, ?_, ?_⟩
      · simp only [piecesGo, if_neg hp]; rw [h2']; simp
      · simp only [piecesGo, if_neg hp]; rw [h2]; simp

theorem pieces_none {sep : Text} : ∀ {t : Text}, ¬ Occurs t sep → pieces t sep = [t]
  | [], _ => by simp [pieces, piecesGo]
  | c :: t, h => by
    have hp : ¬ sep.isPrefixOf (c :: t) = true := fun hp =>
      h ⟨0, occursAt_zero.2 (List.isPrefixOf_iff_prefix.1 hp)⟩
    have ht : ¬ Occurs t sep := fun ⟨i, hi⟩ => h ⟨i + 1, occursAt_cons_succ.2 hi⟩
    have := pieces_none ht
    obtain ⟨a, l, h1, h2⟩ := pieces_acc (sep := sep) t ([] ++ [c])
    simp only [pieces] at this ⊢
    rw [h1] at this
    simp only [List.cons.injEq] at this
    simp only [piecesGo, if_neg hp]
    rw [h2, this.1, this.2]; simp

theorem pieces_first {sep : Text} (hs : sep ≠ []) : ∀ {t : Text} {i : Nat}, IsFirst t sep i →
    pieces t sep = t.take i :: pieces (t.drop (i + sep.length)) sep
  | [], i, h => by
    have := h.1.le
    simp only [List.length_nil] at this
    exact absurd (List.eq_nil_of_length_eq_zero (by omega)) hs
  | c :: t, 0, h => by
    have hp : sep.isPrefixOf (c :: t) = true := List.isPrefixOf_iff_prefix.2 (occursAt_zero.1 h.1)
    have hl : 0 < sep.length := List.length_pos_iff.2 hs
    simp only [pieces, piecesGo, if_pos hp, Nat.zero_add, List.take_zero]
    rw [piecesGo_skip]
    obtain ⟨n, hn⟩ : ∃ n, sep.length = n + 1 := ⟨sep.length - 1, by omega⟩
    simp [hn]
  | c :: t, i + 1, h => by
    have hp : ¬ sep.isPrefixOf (c :: t) = true := by rw [isPrefixOf_false_of h]; simp
    have := pieces_first hs (isFirst_tail h)
    obtain ⟨a, l, h1, h2⟩ := pieces_acc (sep := sep) t ([] ++ [c])
    simp only [pieces] at this ⊢
    rw [h1] at this
    simp only [List.cons.injEq] at this
    simp only [piecesGo, if_neg hp]
    have e : i + 1 + sep.length = (i + sep.length) + 1 := by omega
    rw [h2, this.1, this.2, e]; simp

end Vita
