import Verif.Props.StrQuery
import Verif.Props.StrEdit
/-!
# C127: counting, splitting, replacing and popping agree on the occurrences
-/

namespace Vita
open Out Spec

seal wadd wsub wmul

/-! ### Laws of the specification -/

theorem occursAt_char {t ss : Text} {j : Nat} (h : OccursAt t ss j) {m : Nat} (hm : m < ss.length) : t[j + m]? = ss[m]? := by
  obtain ⟨a, b, rfl, rfl⟩ := h
  rw [List.append_assoc, List.getElem?_append_right (by omega), List.getElem?_append_left (by omega)]
  congr 1
  omega

theorem replaceAll_join {ss : Text} (h0 : ss ≠ []) (r : Text) : ∀ (n : Nat) (t : Text), t.length ≤ n → replaceAll t ss r = joinWith r (pieces t ss) := by
  intro n
  induction n with
  | zero =>
    intro t ht
    have : t = [] := List.length_eq_zero_iff.1 (by omega)
    subst this
    rfl
  | succ n ih =>
    intro t ht
    have hz0 : 0 < ss.length := List.length_pos_iff.2 h0
    rcases exists_first_or_none t ss with ⟨i, hi, -⟩ | ⟨hn, -⟩
    · have hle := hi.1.le
      rw [replaceAll_first h0 hi, pieces_first h0 hi, ih _ (by simp; omega)]
      cases hp : pieces (t.drop (i + ss.length)) ss with
      | nil => obtain ⟨a, l, e, -⟩ := pieces_acc (sep := ss) (t.drop (i + ss.length)) []; rw [pieces, e] at hp; exact nomatch hp
      | cons a l => rw [joinWith]
    · rw [replaceAll_none hn, pieces_none hn, joinWith]

theorem pieces_length {ss : Text} (h0 : ss ≠ []) : ∀ (n : Nat) (t : Text), t.length ≤ n → (pieces t ss).length = (positions t ss).length + 1 := by
  intro n
  induction n with
  | zero =>
    intro t ht
    have : t = [] := List.length_eq_zero_iff.1 (by omega)
    subst this
    rfl
  | succ n ih =>
    intro t ht
    have hz0 : 0 < ss.length := List.length_pos_iff.2 h0
    rcases exists_first_or_none t ss with ⟨i, hi, -⟩ | ⟨hn, -⟩
    · have hle := hi.1.le
      rw [positions_first h0 hi, pieces_first h0 hi, List.length_cons, ih _ (by simp; omega), List.length_cons, List.length_map]
    · rw [positions_none hn, pieces_none hn]
      rfl

theorem joinWith_length (r : Text) : ∀ ps : List Text, ps ≠ [] → (joinWith r ps).length + r.length = (ps.map List.length).sum + ps.length * r.length
  | [], h => absurd rfl h
  | [a], _ => by simp [joinWith]
  | a :: b :: l, _ => by
    have := joinWith_length r (b :: l) (by simp)
    simp only [joinWith, List.length_append, List.map_cons, List.sum_cons, List.length_cons, Nat.add_mul, Nat.one_mul] at this ⊢
    omega

theorem isFirst_after {p r q : Text} (h0 : r ≠ []) (hp : ∀ x ∈ p, x ∉ r) : IsFirst (p ++ r ++ q) r p.length := by
  refine ⟨⟨p, q, rfl, rfl⟩, fun j hj ho => ?_⟩
  have hz0 : 0 < r.length := List.length_pos_iff.2 h0
  have := occursAt_char ho hz0
  rw [List.append_assoc, Nat.add_zero, List.getElem?_append_left hj, List.getElem?_eq_getElem hj, List.getElem?_eq_getElem hz0] at this
  exact hp _ (List.getElem_mem hj) (Option.some.inj this ▸ List.getElem_mem hz0)

theorem pieces_joinWith {r : Text} (h0 : r ≠ []) : ∀ ps : List Text, ps ≠ [] → (∀ p ∈ ps, ∀ x ∈ p, x ∉ r) → pieces (joinWith r ps) r = ps
  | [], h, _ => absurd rfl h
  | [a], _, h => by
    rw [joinWith]
    refine pieces_none fun ⟨j, hj⟩ => ?_
    have hz0 : 0 < r.length := List.length_pos_iff.2 h0
    have hle := hj.le
    have := occursAt_char hj hz0
    rw [Nat.add_zero, List.getElem?_eq_getElem (by omega), List.getElem?_eq_getElem hz0] at this
    exact h a (by simp) _ (List.getElem_mem (by omega)) (Option.some.inj this ▸ List.getElem_mem hz0)
  | a :: b :: l, _, h => by
    rw [joinWith, pieces_first h0 (isFirst_after h0 (h a (by simp))), List.append_assoc, List.take_left, ← List.append_assoc,
      show a.length + r.length = (a ++ r).length by simp, List.drop_left, pieces_joinWith h0 (b :: l) (by simp) fun p hp => h p (List.mem_cons_of_mem _ hp)]

theorem joinWith_not_occurs {r ss : Text} (h0 : ss ≠ []) (hr : r ≠ []) (hd : ∀ x ∈ r, x ∉ ss) : ∀ ps : List Text, (∀ p ∈ ps, ¬ Occurs p ss) → ¬ Occurs (joinWith r ps) ss
  | [], _ => fun ⟨j, hj⟩ => by
    have := hj.le
    have hz0 : 0 < ss.length := List.length_pos_iff.2 h0
    simp only [joinWith, List.length_nil] at this
    omega
  | [a], h => h a (by simp)
  | a :: b :: l, h => fun ⟨j, hj⟩ => by
    have hz0 : 0 < ss.length := List.length_pos_iff.2 h0
    have hr0 : 0 < r.length := List.length_pos_iff.2 hr
    have ih := joinWith_not_occurs h0 hr hd (b :: l) fun p hp => h p (List.mem_cons_of_mem _ hp)
    rw [joinWith] at hj
    by_cases h1 : j + ss.length ≤ a.length
    · refine h a (by simp) ⟨j, ?_⟩
      rw [occursAt_iff] at hj ⊢
      refine ⟨by omega, ?_⟩
      rw [List.append_assoc, List.drop_append_of_le_length (by omega)] at hj
      rw [List.prefix_iff_eq_take] at hj ⊢
      rw [hj.2, List.take_append_of_le_length (by simp; omega), List.length_take]
      simp
    · by_cases h2 : j < a.length + r.length
      · -- a character of `r` in the occurrence
        have hm : max j a.length - j < ss.length := by omega
        have := occursAt_char hj hm
        rw [show j + (max j a.length - j) = max j a.length by omega, List.append_assoc, List.getElem?_append_right (by omega),
          List.getElem?_append_left (by omega), List.getElem?_eq_getElem (by omega), List.getElem?_eq_getElem hm] at this
        exact hd _ (Option.some.inj this ▸ List.getElem_mem _) (List.getElem_mem hm)
      · refine ih ⟨j - (a ++ r).length, ?_⟩
        have e := (occursAt_drop (t := a ++ r ++ joinWith r (b :: l)) (sub := ss) (i := (a ++ r).length) (j := j - (a ++ r).length) (by simp)).2
        rw [List.drop_left] at e
        refine e ?_
        rwa [show (a ++ r).length + (j - (a ++ r).length) = j by simp; omega]

theorem pieces_ne_nil (t ss : Text) : pieces t ss ≠ [] := by
  obtain ⟨a, l, e, -⟩ := pieces_acc (sep := ss) t []
  rw [pieces, e]
  exact List.cons_ne_nil _ _

/-! ### The functions -/

/-- **C127** If `vt_str_can_find` counts `n` occurrences of a text, replacing them changes the length by `n` times the difference of the two lengths. -/
theorem C127_replace_length {E : Env} {v : Arr} {t ss rs : Text} (h : IsStr v t) {sub rsub : Mem} (hs : CStr sub ss) (hr : CStr rsub rs) (hs0 : ss ≠ [])
    (hr0 : rs ≠ []) (hl : ss.length ≤ t.length) {k : Nat} (hk : t.length < k) :
    ∃ n, Str.canFind k v sub = .ok n ∧
      OkOr E (t.length + (replaceAll t ss rs).length + 1) (Str.replace E k v sub rsub) fun v' => v'.len + n * ss.length = v.len + n * rs.length := by
  refine ⟨_, canFind_ok h hs hs0 hl hk, (C23_replace h hs hr hs0 hr0 hk).mono fun v' h' => ?_⟩
  have e1 := joinWith_length ss (pieces t ss) (pieces_ne_nil t ss)
  have e2 := joinWith_length rs (pieces t ss) (pieces_ne_nil t ss)
  rw [joinWith_pieces hs0 _ t (Nat.le_refl _)] at e1
  rw [← replaceAll_join hs0 rs _ t (Nat.le_refl _)] at e2
  rw [pieces_length hs0 _ t (Nat.le_refl _), Nat.add_mul, Nat.one_mul] at e1 e2
  rw [h'.1.len, h.len]
  omega

/-- **C127** Replacing a text by itself changes nothing. -/
theorem C127_replace_same {E : Env} {v : Arr} {t ss : Text} (h : IsStr v t) {sub rsub : Mem} (hs : CStr sub ss) (hr : CStr rsub ss) (hs0 : ss ≠ [])
    {k : Nat} (hk : t.length < k) : OkOr E (2 * t.length + 1) (Str.replace E k v sub rsub) fun v' => IsStr v' t := by
  have e : replaceAll t ss ss = t := by rw [replaceAll_join hs0 ss _ t (Nat.le_refl _), joinWith_pieces hs0 _ t (Nat.le_refl _)]
  refine (C23_replace h hs hr hs0 hs0 hk).mono (fun v' h' => ?_) (by rw [e]; omega)
  rw [e] at h'
  exact h'.1

/-- **C127** If the replacement has no character in common with the text, none of the old occurrences and no new ones are left, there are as many occurrences of the
replacement as there were of what it replaces, and replacing back restores the text. -/
theorem C127_replace_back {E : Env} {v : Arr} {t ss rs : Text} (h : IsStr v t) {sub rsub : Mem} (hs : CStr sub ss) (hr : CStr rsub rs) (hs0 : ss ≠ [])
    (hr0 : rs ≠ []) (hl : ss.length ≤ t.length) (hd : ∀ x ∈ rs, x ∉ t ∧ x ∉ ss) {k : Nat} (hk : t.length + (replaceAll t ss rs).length < k) :
    ∃ n, Str.canFind k v sub = .ok n ∧
      OkOr E (t.length + (replaceAll t ss rs).length + 1) (Str.replace E k v sub rsub) fun v' =>
        (∃ t', IsStr v' t' ∧ ¬ Occurs t' ss ∧ (ss.length ≤ t'.length → Str.canFind k v' sub = .ok 0) ∧ (rs.length ≤ t'.length → Str.canFind k v' rsub = .ok n)) ∧
        OkOr E (t.length + (replaceAll t ss rs).length + 1) (Str.replace E k v' rsub sub) fun v'' => IsStr v'' t := by
  refine ⟨_, canFind_ok h hs hs0 hl (by omega), (C23_replace h hs hr hs0 hr0 (k := k) (by omega)).mono fun v' h' => ?_⟩
  have ej := replaceAll_join hs0 rs _ t (Nat.le_refl _)
  have hsub : ∀ p ∈ pieces t ss, ∀ x ∈ p, x ∈ t := by
    intro p hp x hx
    have e := joinWith_pieces hs0 _ t (Nat.le_refl _)
    have gen : ∀ ps : List Text, p ∈ ps → x ∈ joinWith ss ps := by
      intro ps
      induction ps with
      | nil => intro h; exact nomatch h
      | cons a l ih =>
        intro hm
        cases l with
        | nil => rw [joinWith]; rw [List.mem_singleton.1 hm] at hx; exact hx
        | cons b l =>
          rw [joinWith]
          rcases List.mem_cons.1 hm with rfl | hm
          · exact List.mem_append_left _ (List.mem_append_left _ hx)
          · exact List.mem_append_right _ (ih hm)
    rw [← e]
    exact gen _ hp
  have hp : pieces (replaceAll t ss rs) rs = pieces t ss := by
    rw [ej]
    exact pieces_joinWith hr0 _ (pieces_ne_nil t ss) fun p hp x hx hxr => (hd x hxr).1 (hsub p hp x hx)
  have hno : ¬ Occurs (replaceAll t ss rs) ss := by
    rw [ej]
    exact joinWith_not_occurs hs0 hr0 (fun x hx => (hd x hx).2) _ (C29_pieces_spec hs0).2
  have hback : replaceAll (replaceAll t ss rs) rs ss = t := by
    rw [replaceAll_join hr0 ss _ _ (Nat.le_refl _), hp, joinWith_pieces hs0 _ t (Nat.le_refl _)]
  refine ⟨⟨_, h'.1, hno, fun hle => ?_, fun hle => ?_⟩, ?_⟩
  · rw [canFind_ok h'.1 hs hs0 hle (by omega), positions_none hno]
    rfl
  · rw [canFind_ok h'.1 hr hr0 hle (by omega)]
    have e1 := pieces_length hs0 _ t (Nat.le_refl _)
    have e2 := pieces_length hr0 _ (replaceAll t ss rs) (Nat.le_refl _)
    rw [hp] at e2
    congr 1
    omega
  · refine (C23_replace h'.1 hr hs hr0 hs0 (k := k) (by omega)).mono (fun v'' h'' => ?_) (by rw [hback]; omega)
    rw [hback] at h''
    exact h''.1

/-- **C127** The strings that `vt_str_split` returns have together the length of the text less that of the `n` separators counted by `vt_str_can_find`, and there are at
most `n + 1` of them.  (Not for texts that end in two separators, see C29.) -/
theorem C127_split_length {E : Env} {v : Arr} {t ss : Text} (h : IsStr v t) {sep : Mem} (hs : CStr sep ss) (h0 : ss ≠ []) (ho : Occurs t ss)
    (he : ¬ [[], []] <:+ pieces t ss) {k : Nat} (hk : t.length < k) :
    ∃ n, Str.canFind k v sep = .ok n ∧ OkOr E (t.length + 56) (Str.split E k v sep) fun o =>
      ∃ l, o = some l ∧ (l.map (·.len)).sum + n * ss.length = v.len ∧ l.length ≤ n + 1 := by
  have hl : ss.length ≤ t.length := by
    obtain ⟨j, hj⟩ := ho
    have := hj.le
    omega
  refine ⟨_, canFind_ok h hs h0 hl hk, (C29_split_partial h hs h0 ho he hk).mono fun o ⟨l, e, hf⟩ => ⟨l, e, ?_⟩⟩
  have e1 := joinWith_length ss (pieces t ss) (pieces_ne_nil t ss)
  rw [joinWith_pieces h0 _ t (Nat.le_refl _), pieces_length h0 _ t (Nat.le_refl _), Nat.add_mul, Nat.one_mul] at e1
  have gen : ∀ (l : List Arr) (ps : List Text), List.Forall₂ IsStr l ps → (l.map (·.len)).sum = (ps.map List.length).sum := by
    intro l ps hf
    induction hf with
    | nil => rfl
    | cons hd _ ih => rw [List.map_cons, List.map_cons, List.sum_cons, List.sum_cons, hd.len, ih]
  have drop : ∀ ps : List Text, ((ps.filter (· ≠ [])).map List.length).sum = (ps.map List.length).sum := by
    intro ps
    induction ps with
    | nil => rfl
    | cons a ps ih =>
      by_cases ha : a = []
      · rw [List.filter_cons_of_neg (by simp [ha]), ih, ha]
        simp
      · rw [List.filter_cons_of_pos (by simp [ha]), List.map_cons, List.map_cons, List.sum_cons, List.sum_cons, ih]
  constructor
  · rw [gen l _ hf, drop, h.len]
    omega
  · rw [hf.length_eq, ← pieces_length h0 _ t (Nat.le_refl _)]
    exact List.length_filter_le _ _

/-- **C127** Popping the first field takes the first of the pieces into which the separators divide the text and leaves the others. -/
theorem C127_pop_piece {E : Env} {v : Arr} {t ss : Text} (h : IsStr v t) {sep : Mem} (hs : CStr sep ss) (h0 : ss ≠ []) {i : Nat} (hi : IsFirst t ss i) (hp : 0 < i) :
    OkOr E (i + 56) (Str.popGetFirst E none v sep) fun q => ∃ x a b, q.1 = some x ∧ IsStr x a ∧ IsStr q.2 b ∧ pieces t ss = a :: pieces b ss := by
  refine (C32_pop_get_first h hs h0 (sr := none) (by simp) hi hp).mono ?_ (by simp [capOf])
  rintro q ⟨x, a, b, e, h1, h2, rfl, rfl⟩
  refine ⟨x, a, b, e, h1, h2, ?_⟩
  rw [pieces_first h0 hi, List.append_assoc, List.take_left, ← List.append_assoc, show a.length + ss.length = (a ++ ss).length by simp, List.drop_left]

/-- **C127** A text is found at the beginning exactly if the string starts with it. -/
theorem C127_starts {v : Arr} {t ss : Text} (h : IsStr v t) {sub : Mem} (hs : CStr sub ss) (hl : ss.length ≤ t.length) :
    ∃ r, Str.startsWith v sub = .ok r ∧ (r = true ↔ Str.find v sub = .ok (some 0)) := by
  obtain ⟨r, e, hr⟩ := C33_starts_with h hs
  refine ⟨r, e, hr.trans ⟨fun hp => ?_, fun hf => ?_⟩⟩
  · rcases C28_find_partial h hs hl with ⟨i, hi, e, -⟩ | ⟨hn, -⟩
    · rcases Nat.eq_zero_or_pos i with rfl | h0
      · exact e
      · exact absurd (occursAt_zero.2 hp) (hi.2 0 h0)
    · exact absurd ⟨0, occursAt_zero.2 hp⟩ hn
  · rcases C28_find_partial h hs hl with ⟨i, hi, e, -⟩ | ⟨hn, e, -⟩
    · rw [e] at hf
      cases hf
      exact occursAt_zero.1 hi.1
    · rw [e] at hf
      exact nomatch hf

example : (Str.replace exE 20 (strObj [97, 44, 97, 44, 98] 0) (zstr [44]) (zstr [32, 45])).mapOk Str.z = .ok (.ok [97, 32, 45, 97, 32, 45, 98]) := by decide +kernel
example : Str.canFind 20 (strObj [97, 44, 97, 44, 98] 0) (zstr [44]) = .ok 2 := by decide +kernel
example : Str.canFind 20 (strObj [97, 32, 45, 97, 32, 45, 98] 0) (zstr [32, 45]) = .ok 2 := by decide +kernel
example : ∀ x ∈ ([32, 45] : Text), x ∉ ([97, 44, 97, 44, 98] : Text) ∧ x ∉ ([44] : Text) := by decide +kernel
example : pieces [97, 44, 97, 44, 98] [44] = [[97], [97], [98]] := by decide +kernel

end Vita
