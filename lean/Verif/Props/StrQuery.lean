import Verif.Lemmas.StrSplit
import Verif.Props.StrEdit
/-!
# Properties C26-C34: stripping, searching, splitting, joining, comparing

See Props/StrEdit.lean for `IsStr`, `CStr` and `OkOr`.  `k` is the number of loop iterations allowed; the claims hold for
every `k` larger than the text, so the loops end.
-/

namespace Vita
open Out Spec

seal wadd wsub wmul

/-! ### C26 -/

/-- The characters removed by `strip`: blank, tab, line feed, vertical tab, form feed, carriage return. -/
def Blank (c : UInt8) : Bool := decide (c ∈ [32, 9, 10, 11, 12, 13])
/-- The ASCII punctuation marks. -/
def Punct (c : UInt8) : Bool :=
  decide (c ∈ [33, 34, 35, 36, 37, 38, 39, 40, 41, 42, 43, 44, 45, 46, 47, 58, 59, 60, 61, 62, 63, 64,
    91, 92, 93, 94, 95, 96, 123, 124, 125, 126])

theorem uint8_ext {p q : UInt8 → Bool} (h : ∀ n : Fin 256, p (UInt8.ofNat n) = q (UInt8.ofNat n)) (c : UInt8) : p c = q c := by
  have := h ⟨c.toNat, c.toNat_lt⟩
  simpa using this

theorem isspace_eq : ∀ c, isspace c = Blank c := uint8_ext (by decide +kernel)
theorem ispunct_eq : ∀ c, ispunct c = Punct c := uint8_ext (by decide +kernel)

/-- **C26** The result of stripping is determined by the text. -/
theorem C26_strip_unique {p : UInt8 → Bool} {t m m' : Text} (h : IsStrip p t m) (h' : IsStrip p t m') (h0 : m ≠ [])
    (h0' : m' ≠ []) : m = m' := strip_unique h h' h0 h0'

/-- **C26** (partial: a text with nothing to keep is excluded, see `C26_all_blank_undefined`; and control
characters other than white space are kept, see `C26_control_kept`.) -/
theorem C26_strip_partial {v : Arr} {t : Text} (h : IsStr v t) (hc : ∃ c ∈ t, Blank c = false) {k : Nat} (hk : t.length < k) :
    ∃ v' m, Str.strip k v = .ok v' ∧ IsStr v' m ∧ IsStrip Blank t m ∧ m ≠ [] ∧ v'.cap = v.cap := by
  have e : isspace = Blank := funext isspace_eq
  obtain ⟨m, h1, h2⟩ := exists_strip Blank hc
  obtain ⟨v', e1, s1, c1⟩ := stripBy_ok (p := Blank) (by decide) h h2 h1 hk
  exact ⟨v', m, by rw [Str.strip, e, e1], s1, h2, h1, c1⟩

/-- **C26** (partial: as for `C26_strip_partial`.) -/
theorem C26_strip_punct_partial {v : Arr} {t : Text} (h : IsStr v t) (hc : ∃ c ∈ t, (Blank c || Punct c) = false) {k : Nat}
    (hk : t.length < k) :
    ∃ v' m, Str.stripPunct k v = .ok v' ∧ IsStr v' m ∧ IsStrip (fun c => Blank c || Punct c) t m ∧ m ≠ [] ∧ v'.cap = v.cap := by
  have e : (fun x => isspace x || ispunct x) = fun c => Blank c || Punct c :=
    funext fun c => by rw [isspace_eq, ispunct_eq]
  obtain ⟨m, h1, h2⟩ := exists_strip _ hc
  obtain ⟨v', e1, s1, c1⟩ := stripBy_ok (p := fun c => Blank c || Punct c) (by decide) h h2 h1 hk
  exact ⟨v', m, by rw [Str.stripPunct, e, e1], s1, h2, h1, c1⟩

/-- **C26** (partial: a text with nothing to keep and an empty set of characters are excluded, see
`C26_all_blank_undefined` and `C26_empty_set_never_ends`.) -/
theorem C26_strip_c_partial {v : Arr} {t cs : Text} (h : IsStr v t) {c : Mem} (hcs : CStr c cs) (h0 : cs ≠ [])
    (hc : ∃ c ∈ t, c ∉ cs) {k : Nat} (hk : t.length < k) :
    ∃ v' m, Str.stripC k v c = .ok v' ∧ IsStr v' m ∧ IsStrip (fun x => decide (x ∈ cs)) t m ∧ m ≠ [] ∧ v'.cap = v.cap := by
  obtain ⟨m, h1, h2⟩ := exists_strip (fun x => decide (x ∈ cs)) (t := t) (by simpa using hc)
  obtain ⟨v', e1, s1, c1⟩ := stripBy_ok (p := fun x => decide (x ∈ cs)) (by simpa using hcs.nz) h h2 h1 hk
  exact ⟨v', m, by rw [stripC_eq hcs.text h0, e1], s1, h2, h1, c1⟩

/-- **C26** (counterexample) A text consisting only of characters to strip, also the empty text, does
not become empty: the trailing loop reads the memory before the text. -/
theorem C26_all_blank_undefined {v : Arr} {t : Text} (h : IsStr v t) {k : Nat} (hk : t.length < k) :
    ((∀ c ∈ t, Blank c = true) → Str.strip k v = .ub) ∧
    ((∀ c ∈ t, (Blank c || Punct c) = true) → Str.stripPunct k v = .ub) ∧
    (∀ c cs, CStr c cs → cs ≠ [] → (∀ x ∈ t, x ∈ cs) → Str.stripC k v c = .ub) := by
  refine ⟨fun ha => ?_, fun ha => ?_, fun c cs hc h0 ha => ?_⟩
  · exact stripBy_all (by decide) h (fun c hc => by rw [isspace_eq]; exact ha c hc) hk
  · exact stripBy_all (by decide) h (fun c hc => by simpa only [isspace_eq, ispunct_eq] using ha c hc) hk
  · rw [stripC_eq hc.text h0]
    exact stripBy_all (by simpa using hc.nz) h (by simpa using ha) hk

/-- **C26** (counterexample) With an empty set of characters `strip_c` does not return: whatever number of
iterations is allowed, the first loop is not finished. -/
theorem C26_empty_set_never_ends {v : Arr} {t : Text} (h : IsStr v t) {c : Mem} (hc : CStr c []) (k : Nat) :
    Str.stripC k v c = .fuel := by
  have key : ∀ k, Str.stripCFront [] v.mem k 0 = .fuel := by
    intro k
    induction k with
    | zero => rfl
    | succ k ih =>
      obtain ⟨x, hx⟩ : ∃ x, getc v.mem 0 = .ok x := by
        rcases Nat.eq_zero_or_pos t.length with h0 | h0
        · exact ⟨0, by have := getc_end h.text; rwa [h0] at this⟩
        · exact ⟨_, getc_text h.text h0⟩
      rw [Str.stripCFront, hx, bind_ok]
      simpa [Str.stripCFor] using ih
  simp only [Str.stripC, hc.text, bind_ok, key, bind_fuel]

/-- **C26** (refutation) Control characters are documented to be stripped (str.h), but only white space is: a text whose
first and last characters are control characters (or anything else) other than white space stays as it is. -/
theorem C26_control_kept {v : Arr} {c d : UInt8} {m : Text} (hc : Blank c = false) (hd : Blank d = false) {k : Nat}
    (h : IsStr v (c :: m ++ [d])) (hk : m.length + 2 < k) :
    ∃ v', Str.strip k v = .ok v' ∧ IsStr v' (c :: m ++ [d]) := by
  obtain ⟨v', m', e, s, hi, h0, -⟩ := C26_strip_partial h ⟨c, by simp, hc⟩ (k := k) (by simp; omega)
  have hi' : IsStrip Blank (c :: m ++ [d]) (c :: m ++ [d]) :=
    ⟨[], [], by simp, by simp, by simp, by simpa using hc, by
      rw [List.getLast?_append]; simpa using hd⟩
  rw [C26_strip_unique hi hi' h0 (by simp)] at s
  exact ⟨v', e, s⟩

example : (Str.strip 4 (strObj [1, 97, 127] 0)).mapOk Str.z = .ok (.ok [1, 97, 127]) := by decide +kernel
example : IsStr (strObj [1, 97, 127] 0) (1 :: [97] ++ [127]) ∧ Blank 1 = false ∧ Blank 127 = false :=
  ⟨⟨rfl, rfl, by decide +kernel, rfl, rfl, by decide⟩, rfl, rfl⟩
example : (Str.strip 9 (strObj [32, 9, 97, 32, 98, 10] 0)).mapOk Str.z = .ok (.ok [97, 32, 98]) := by decide +kernel
example : (Str.stripPunct 9 (strObj [32, 44, 97, 44, 98, 46, 10] 0)).mapOk Str.z = .ok (.ok [97, 44, 98]) := by decide +kernel
example : (Str.stripC 9 (strObj [32, 44, 97, 44, 98, 44, 44] 0) (zstr [32, 44])).mapOk Str.z = .ok (.ok [97, 44, 98]) := by
  decide +kernel
example : IsStr (strObj [32, 32] 0) [32, 32] ∧ ∀ c ∈ [32, 32], Blank c = true :=
  ⟨isStr_strObj (by decide) (by decide), by decide⟩

/-! ### C27 -/

/-- **C27** `can_find` counts the non-overlapping occurrences found from left to right. -/
theorem C27_can_find_counts {v : Arr} {t ss : Text} (h : IsStr v t) {sub : Mem} (hs : CStr sub ss) (h0 : ss ≠ [])
    (hl : ss.length ≤ t.length) {k : Nat} (hk : t.length < k) :
    ∃ n, Str.canFind k v sub = .ok n ∧ n = (positions t ss).length ∧ (n = 0 ↔ ¬ Occurs t ss) := by
  refine ⟨_, canFind_ok h hs h0 hl hk, rfl, ?_⟩
  constructor
  · intro hz ho
    exact positions_ne_nil h0 ho (List.length_eq_zero_iff.1 hz)
  · intro hn
    rw [positions_none hn]
    rfl

/-- **C27** The counted positions are occurrences, in increasing order and not overlapping, and between two of them (and before the
first and after the last) there is no further one: every occurrence overlaps or is one of them. -/
theorem C27_positions_spec {t ss : Text} (h0 : ss ≠ []) :
    (∀ i ∈ positions t ss, OccursAt t ss i) ∧
    (positions t ss).Pairwise (fun i j => i + ss.length ≤ j) ∧
    (∀ j, OccursAt t ss j → ∃ i ∈ positions t ss, i ≤ j ∧ j < i + ss.length) := by
  have hz0 : 0 < ss.length := List.length_pos_iff.2 h0
  have : ∀ (n : Nat) (t : Text), t.length ≤ n → (∀ i ∈ positions t ss, OccursAt t ss i) ∧
    (positions t ss).Pairwise (fun i j => i + ss.length ≤ j) ∧
    (∀ j, OccursAt t ss j → ∃ i ∈ positions t ss, i ≤ j ∧ j < i + ss.length) := by
    intro n
    induction n with
    | zero =>
      intro t ht
      have hn : ¬ Occurs t ss := by
        rintro ⟨i, hi⟩
        have := hi.le
        omega
      rw [positions_none hn]
      exact ⟨by simp, .nil, fun j hj => absurd ⟨j, hj⟩ hn⟩
    | succ n ih =>
      intro t ht
      rcases exists_first_or_none t ss with ⟨i, hi, -⟩ | ⟨hn, -⟩
      · have hle := hi.1.le
        obtain ⟨a1, a2, a3⟩ := ih (t.drop (i + ss.length)) (by simp; omega)
        rw [positions_first h0 hi]
        refine ⟨?_, ?_, ?_⟩
        · intro j hj
          rcases List.mem_cons.1 hj with rfl | hj
          · exact hi.1
          · obtain ⟨x, hx, rfl⟩ := List.mem_map.1 hj
            exact (occursAt_drop hle).1 (a1 x hx)
        · refine List.pairwise_cons.2 ⟨?_, List.pairwise_map.2 (a2.imp (by omega))⟩
          intro j hj
          obtain ⟨x, hx, rfl⟩ := List.mem_map.1 hj
          omega
        · intro j hj
          by_cases hlt : j < i + ss.length
          · refine ⟨i, by simp, ?_, hlt⟩
            by_contra hc
            exact hi.2 j (by omega) hj
          · obtain ⟨x, hx, h1, h2⟩ := a3 (j - (i + ss.length))
              ((occursAt_drop hle).2 (by rw [Nat.add_sub_cancel' (by omega)]; exact hj))
            exact ⟨i + ss.length + x, by simp [hx], by omega, by omega⟩
      · rw [positions_none hn]
        exact ⟨by simp, .nil, fun j hj => absurd ⟨j, hj⟩ hn⟩
  exact this _ t (Nat.le_refl _)

example : Str.canFind 9 (strObj [97, 97, 97, 98, 97, 97] 0) (zstr [97, 97]) = .ok 2 := by decide +kernel

/-! ### C28 -/

/-- **C28** (partial: `sub` longer than the text is excluded, see `C28_longer_sub_exits`.)  `find` and
`index_find` return the first position of `sub`, or NULL / -1 exactly if it does not occur. -/
theorem C28_find_partial {v : Arr} {t ss : Text} (h : IsStr v t) {sub : Mem} (hs : CStr sub ss) (hl : ss.length ≤ t.length) :
    (∃ i, IsFirst t ss i ∧ Str.find v sub = .ok (some i) ∧ Str.indexFind v sub = .ok (i : Int)) ∨
    (¬ Occurs t ss ∧ Str.find v sub = .ok none ∧ Str.indexFind v sub = .ok (-1)) := by
  rcases exists_first_or_none t ss with ⟨i, hi, e⟩ | ⟨hn, e⟩
  · exact Or.inl ⟨i, hi, by rw [find_ok h hs hl, e], indexFind_some h hs hi⟩
  · exact Or.inr ⟨hn, by rw [find_ok h hs hl, e], indexFind_none h hs hl hn⟩

/-- **C28** `index_of` returns the first position of a character, or -1 exactly if it does not occur. -/
theorem C28_index_of {v : Arr} {t : Text} (h : IsStr v t) {c : UInt8} (hc : c ≠ 0) :
    (∃ i : Nat, t[i]? = some c ∧ (∀ j : Nat, j < i → t[j]? ≠ some c) ∧ Str.indexOf v c = .ok (i : Int)) ∨
    (c ∉ t ∧ Str.indexOf v c = .ok (-1)) := by
  by_cases hm : c ∈ t
  · have hi := List.idxOf_lt_length_iff.2 hm
    refine Or.inl ⟨t.idxOf c, ?_, ?_, ?_⟩
    · rw [List.getElem?_eq_getElem hi, List.getElem_idxOf]
    · intro j hj he
      obtain ⟨hj', e⟩ := List.getElem?_eq_some_iff.1 he
      have := List.not_of_lt_findIdx (p := (· == c)) (xs := t) (i := j) (by simpa [List.idxOf] using hj)
      simp [e] at this
    · simp only [Str.indexOf, strchr_ok c hc h.text, if_pos hm, bind_ok]
  · refine Or.inr ⟨hm, ?_⟩
    simp only [Str.indexOf, strchr_ok c hc h.text, if_neg hm, bind_ok]

/-- **C28** (counterexample) Looking for a text longer than the string terminates the program instead of
answering "not found". -/
theorem C28_longer_sub_exits {v : Arr} {t ss : Text} (h : IsStr v t) {sub : Mem} (hs : CStr sub ss) (hl : t.length < ss.length) :
    ¬ Occurs t ss ∧ Str.find v sub = .exit .enforce ∧ Str.indexFind v sub = .exit .enforce := by
  refine ⟨?_, find_long h hs hl, by simp only [Str.indexFind, find_long h hs hl, bind_exit]⟩
  rintro ⟨i, hi⟩
  have := hi.le
  omega

/-- **C28** (counterexample) Looking for the character NUL finds the terminator. -/
theorem C28_index_of_nul {v : Arr} {t : Text} (h : IsStr v t) : Str.indexOf v 0 = .ok (t.length : Int) := by
  have : ∀ {m : Mem} {t : Text}, scanZ m = .ok t → strchr m 0 = .ok (some t.length) := by
    intro m t
    induction t generalizing m with
    | nil =>
      intro h
      obtain ⟨m', rfl⟩ := scanZ_nil h
      simp [strchr]
    | cons x t ih =>
      intro h
      obtain ⟨m', rfl, e, hx⟩ := scanZ_cons h
      simp [strchr, hx, ih e]
  simp only [Str.indexOf, this h.text, bind_ok]

example : Str.indexFind (strObj [97, 98, 97, 98] 0) (zstr [98]) = .ok 1 := by decide +kernel
example : Str.indexOf (strObj [97, 98, 97, 98] 0) 99 = .ok (-1) := by decide +kernel

/-! ### C29 -/

/-- **C29** (partial: excluded are a separator longer than the text, see `C29_longer_separator_exits`, and a text ending in two empty pieces,
see `C29_trailing_separators_undefined`.)  If the separator occurs, `split` yields the non-empty pieces in
order.  (`split` has no write access to `s`.) -/
theorem C29_split_partial {E : Env} {v : Arr} {t ss : Text} (h : IsStr v t) {sep : Mem} (hs : CStr sep ss) (h0 : ss ≠ [])
    (ho : Occurs t ss) (he : ¬ [[], []] <:+ pieces t ss) {k : Nat} (hk : t.length < k) :
    OkOr E (t.length + 56) (Str.split E k v sep) fun o => ∃ l, o = some l ∧ List.Forall₂ IsStr l ((pieces t ss).filter (· ≠ [])) := by
  have hlim := h.lim
  have hc := h.le
  have hz0 : 0 < ss.length := List.length_pos_iff.2 h0
  have hle : ss.length ≤ t.length := by
    obtain ⟨i, hi⟩ := ho
    have := hi.le
    omega
  have hp : (positions t ss).length ≠ 0 := fun hh => positions_ne_nil h0 ho (List.length_eq_zero_iff.1 hh)
  simp only [Str.split, canFind_ok h hs h0 hle hk, bind_ok, if_neg hp, strlen_ok hs.text]
  refine (splitLoop_okOr h.text (by omega) hs.text h0 k 0 [] (by omega) (by omega) (by simpa using he)).bind ?_
  rintro r ⟨l, e, hl⟩
  rw [List.nil_append] at e
  subst e
  exact OkOr.ok ⟨r, rfl, by simpa using hl⟩

/-- **C29** If the separator does not occur (and is not longer than the text), `split` returns NULL. -/
theorem C29_split_none {E : Env} {v : Arr} {t ss : Text} (h : IsStr v t) {sep : Mem} (hs : CStr sep ss) (h0 : ss ≠ [])
    (hle : ss.length ≤ t.length) (ho : ¬ Occurs t ss) {k : Nat} (hk : t.length < k) :
    Str.split E k v sep = .ok none := by
  simp [Str.split, canFind_ok h hs h0 hle hk, positions_none ho]

/-- **C29** The pieces are what the separators leave: writing them with the separator in between gives the
text, and no piece contains the separator. -/
theorem C29_pieces_spec {t ss : Text} (h0 : ss ≠ []) :
    joinWith ss (pieces t ss) = t ∧ ∀ p ∈ pieces t ss, ¬ Occurs p ss := by
  refine ⟨joinWith_pieces h0 _ t (Nat.le_refl _), ?_⟩
  have hz0 : 0 < ss.length := List.length_pos_iff.2 h0
  have : ∀ (n : Nat) (t : Text), t.length ≤ n → ∀ p ∈ pieces t ss, ¬ Occurs p ss := by
    intro n
    induction n with
    | zero =>
      intro t ht p hp
      have : t = [] := List.length_eq_zero_iff.1 (by omega)
      subst this
      simp [pieces, piecesGo] at hp
      subst hp
      rintro ⟨i, hi⟩
      have := hi.le
      simp only [List.length_nil] at this
      omega
    | succ n ih =>
      intro t ht p hp
      rcases exists_first_or_none t ss with ⟨i, hi, -⟩ | ⟨hn, -⟩
      · have hle := hi.1.le
        rw [pieces_first h0 hi] at hp
        rcases List.mem_cons.1 hp with rfl | hp
        · rintro ⟨j, hj⟩
          have hj1 := hj.le
          simp at hj1
          refine hi.2 j (by omega) ?_
          obtain ⟨a, b, e, hl⟩ := hj
          exact ⟨a, b ++ t.drop i, by rw [← List.append_assoc, ← e, List.take_append_drop], hl⟩
        · exact ih _ (by simp; omega) p hp
      · rw [pieces_none hn] at hp
        rw [List.mem_singleton.1 hp]
        exact hn
  exact this _ t (Nat.le_refl _)

/-- **C29** (counterexample) A separator longer than the text terminates the program. -/
theorem C29_longer_separator_exits {E : Env} {v : Arr} {t ss : Text} (h : IsStr v t) {sep : Mem} (hs : CStr sep ss)
    (hl : t.length < ss.length) (k : Nat) : Str.split E k v sep = .exit .enforce := by
  have : ¬ ss.length ≤ t.length := by omega
  simp [Str.split, Str.canFind, strlen_ok hs.text, h.len, this]

/-- **C29** (counterexample) If the text ends in two empty pieces (",", "a,," and so on) and there is no spare capacity,
`split` reads memory behind the buffer, unless it is terminated by a refused memory request before. -/
theorem C29_trailing_separators_undefined {E : Env} {v : Arr} {t ss : Text} (h : IsStr v t) (hcap : v.cap = t.length) {sep : Mem}
    (hs : CStr sep ss) (h0 : ss ≠ []) (ho : Occurs t ss) (he : [[], []] <:+ pieces t ss) {k : Nat} (hk : t.length + 1 < k) :
    Str.split E k v sep = .ub ∨ (Str.split E k v sep = .exit .alloc ∧ E.Refuses (t.length + 56)) := by
  have hlim := h.lim
  have hc := h.le
  have hz0 : 0 < ss.length := List.length_pos_iff.2 h0
  have hle : ss.length ≤ t.length := by
    obtain ⟨i, hi⟩ := ho
    have := hi.le
    omega
  have hp : (positions t ss).length ≠ 0 := fun hh => positions_ne_nil h0 ho (List.length_eq_zero_iff.1 hh)
  simp only [Str.split, canFind_ok h hs h0 hle (show t.length < k by omega), bind_ok, if_neg hp, strlen_ok hs.text]
  rcases splitLoop_ub (E := E) h.text (by omega) (by rw [h.size, hcap]) hs.text h0 k 0 [] (by omega) (by omega)
    (Or.inr (by simpa using he)) with e | ⟨e, hn⟩
  · left; rw [e, bind_ub]
  · right; exact ⟨by rw [e, bind_exit], hn⟩

/-- **C29** (refutation) With spare capacity the text consisting of one separator may even yield a piece that is not in the text:
whatever an earlier, longer text (`u`) has left in the buffer behind it. -/
theorem C29_stale_piece {E : Env} {v : Arr} {c : UInt8} {u : Text} (hm : v.mem = some c :: some 0 :: zstr u)
    (h : IsStr v [c]) (hu : u ≠ []) (hz : 0 ∉ u) (hc : c ∉ u) {k : Nat} (hk : 2 < k) :
    OkOr E (u.length + 56) (Str.split E k v (zstr [c])) fun o => ∃ w, o = some [w] ∧ IsStr w u := by
  have hc0 : c ≠ 0 := fun hh => h.nz (by simp [hh])
  have hlim := h.lim
  have hsz := h.size
  have hsz' : v.mem.length = u.length + 3 := by simp [hm, zstr]
  have hs : CStr (zstr [c]) [c] := ⟨scanZ_eq_ok.2 ⟨⟨[], rfl⟩, by simpa using hc0.symm⟩, by simp [zstr]⟩
  have h0 : IsFirst [c] [c] 0 := ⟨⟨[], [], rfl, rfl⟩, by omega⟩
  have hp : (positions [c] [c]).length ≠ 0 := fun hh =>
    positions_ne_nil (by simp) ⟨0, h0.1⟩ (List.length_eq_zero_iff.1 hh)
  have hd1 : scanZ (v.mem.drop 1) = .ok [] := by rw [hm]; rfl
  have hd2 : scanZ (v.mem.drop 2) = .ok u := by rw [hm]; exact scanZ_eq_ok.2 ⟨⟨[], rfl⟩, hz⟩
  have hno : ∀ x : Text, c ∉ x → findSub x [c] = none := fun x hx => findSub_none.2 (by
    rintro ⟨i, a, b, e, -⟩
    rw [e] at hx; simp at hx)
  obtain ⟨k, rfl⟩ : ∃ k', k = k' + 3 := ⟨k - 3, by omega⟩
  have a0 : cstrAt v.mem 0 = .ok [c] := by rw [cstrAt, if_pos (by omega), List.drop_zero, h.text]
  have a1 : cstrAt v.mem 1 = .ok [] := by rw [cstrAt, if_pos (by omega), hd1]
  have a2 : cstrAt v.mem 2 = .ok u := by rw [cstrAt, if_pos (by omega), hd2]
  have hu0 : 0 < u.length := List.length_pos_iff.2 hu
  have w0 : wsub 1 1 = 0 := wsub_eq (by omega) (by omega)
  have w1 : wsub 0 0 = 0 := wsub_eq (by omega) (by omega)
  have w2 : wsub u.length 0 = u.length := wsub_eq (by omega) (by omega)
  have f0 : findSub [c] [c] = some 0 := findSub_some.2 h0
  simp only [Str.split, canFind_ok h hs (by simp) (by simp) (show [c].length < k + 3 by simp), bind_ok, if_neg hp,
    strlen_ok hs.text, Str.splitLoop, f0, a0, Option.map_some, List.length_singleton,
    Nat.sub_zero, w0, if_true, Nat.zero_add, strstrAt, strlenAt, a1, a2, hs.text, hno [] (by simp), hno u hc, Option.map_none,
    List.length_nil, w1, w2, if_neg (show u.length ≠ 0 by omega), Nat.reduceAdd]
  have hb : Begins (v.mem.drop 2) u := ⟨[some 0], by rw [hm]; rfl⟩
  refine OkOr.bind (B₀ := u.length + 56) (P := fun l => ∃ w, l = [w] ∧ IsStr w u) ?_ (by rintro l ⟨w, rfl, hw⟩; exact OkOr.ok ⟨w, rfl, hw⟩)
  refine (createLen_okOr hu0 (by omega)).bind fun x hx => ?_
  obtain ⟨w, e, hw, -⟩ := setN_ok (E := E) hx.1 hz hb (Or.inl hu0) (by simp)
  rw [e]
  exact OkOr.ok ⟨w, rfl, hw⟩

example : (Str.split exE 9 ⟨1, 4, 1, 0, false, [some 44, some 0, some 97, some 98, some 0]⟩ (zstr [44])).mapOk
      (fun o => o.map (List.map Str.z)) = .ok (some [.ok [97, 98]]) ∧
    IsStr ⟨1, 4, 1, 0, false, [some 44, some 0, some 97, some 98, some 0]⟩ [44] :=
  ⟨by decide +kernel, ⟨rfl, rfl, by decide +kernel, rfl, rfl, by decide⟩⟩

example : (Str.split exE 9 (strObj [44, 97, 44, 44, 98, 44] 0) (zstr [44])).mapOk
    (fun o => o.map (List.map Str.z)) = .ok (some [.ok [97], .ok [98]]) := by decide +kernel
example : pieces [44, 97, 44, 44, 98, 44] [44] = [[], [97], [], [98], []] := by decide +kernel
example : ¬ [[], []] <:+ pieces [44, 97, 44, 44, 98, 44] [44] := by decide +kernel
example : [[], []] <:+ pieces [97, 44, 44] [44] := by decide +kernel

/-! ### C30 -/

theorem forall₂_cstr {l : List Arr} {ts : List Text} (h : List.Forall₂ IsStr l ts) :
    List.Forall₂ CStr (l.map (·.mem)) ts := by
  induction h with
  | nil => exact .nil
  | cons h _ ih => exact .cons h.cstr ih

/-- **C30** `join` appends the texts of a non-empty list of non-empty C strings with a non-empty separator in between, to a given
string or to a new one. -/
theorem C30_join {E : Env} {sep : Mem} {ss : Text} (hs : CStr sep ss) (h0 : ss ≠ []) {ps : List Mem} {ts : List Text}
    (h : List.Forall₂ CStr ps ts) (hne : ∀ x ∈ ts, x ≠ []) (h1 : ts ≠ []) :
    (∀ v t, IsStr v t → OkOr E (t.length + (joinWith ss ts).length + 1) (Str.join E (some v) sep ps) fun v' => IsStr v' (t ++ joinWith ss ts)) ∧
    OkOr E ((joinWith ss ts).length + 72) (Str.join E none sep ps) fun v' => IsStr v' (joinWith ss ts) := by
  refine ⟨fun v t hv => join_okOr hs h0 h hne h1 hv, ?_⟩
  rw [join_none]
  refine (createCapacity_okOr (by decide) (by decide)).bind (fun v hv => ?_) (by simp [defaultInit])
  exact (join_okOr hs h0 h hne h1 hv.1).mono fun _ h => by simpa using h

/-- **C30** The same for `join_n`. -/
theorem C30_join_n {E : Env} {sep : Mem} {ss : Text} (hs : CStr sep ss) (h0 : ss ≠ []) {ps : List Mem} {ts : List Text}
    (h : List.Forall₂ CStr ps ts) (hne : ∀ x ∈ ts, x ≠ []) (h1 : ts ≠ []) :
    (∀ v t, IsStr v t → OkOr E (t.length + (joinWith ss ts).length + 1) (Str.joinN E (some v) sep ps) fun v' => IsStr v' (t ++ joinWith ss ts)) ∧
    OkOr E ((joinWith ss ts).length + 72) (Str.joinN E none sep ps) fun v' => IsStr v' (joinWith ss ts) := by
  have hl : 0 < ps.length := by rw [h.length_eq]; exact List.length_pos_iff.2 h1
  constructor
  · intro v t hv
    simp only [Str.joinN, gt_iff_lt, hl, decide_true, dassert_true, bind_ok]
    exact joinNLoop_okOr hs h0 h hne hv
  · simp only [Str.joinN, gt_iff_lt, hl, decide_true, dassert_true, bind_ok]
    refine (createCapacity_okOr (n := defaultInit) (by decide) (by decide)).bind (fun v hv => ?_) (by simp [defaultInit])
    exact (joinNLoop_okOr hs h0 h hne hv.1).mono fun _ h => by simpa using h

/-- **C30** (partial: the list handed to `join` here holds the C strings of the pieces.  `split` yields a list of string objects, and
`join` given that list itself does something else, see `C30_join_of_split_list`.)  If all pieces are
non-empty, splitting and joining the pieces gives the text back. -/
theorem C30_join_undoes_split_partial {E : Env} {v : Arr} {t ss : Text} (h : IsStr v t) {sep : Mem} (hs : CStr sep ss)
    (h0 : ss ≠ []) (ho : Occurs t ss) (he : ∀ p ∈ pieces t ss, p ≠ []) {k : Nat} (hk : t.length < k) :
    OkOr E (t.length + 72) (do
      let o ← Str.split E k v sep
      Str.join E none sep ((o.getD []).map (·.mem))) fun v' => IsStr v' t := by
  have h2 : ¬ [[], []] <:+ pieces t ss := fun hc => he [] (hc.subset (by simp)) rfl
  have hf : (pieces t ss).filter (· ≠ []) = pieces t ss := List.filter_eq_self.2 (fun p hp => by simpa using he p hp)
  refine (C29_split_partial h hs h0 ho h2 hk).bind ?_
  rintro o ⟨l, rfl, hl⟩
  rw [hf] at hl
  have hne : pieces t ss ≠ [] := by
    obtain ⟨x, y, hxy, -⟩ := pieces_acc (sep := ss) t []
    have : pieces t ss = x :: y := hxy
    simp [this]
  have := (C30_join (E := E) hs h0 (forall₂_cstr hl) he hne).2
  rw [(C29_pieces_spec h0).1] at this
  exact this

/-- A string object of less than 256 characters, read as a C string, is its length as one character. -/
theorem cstr_structMem {v : Arr} {t : Text} (h : IsStr v t) (h0 : t ≠ []) (hl : t.length < 256) :
    CStr (Str.structMem v) [UInt8.ofNat t.length] := by
  have hp : 0 < t.length := List.length_pos_iff.2 h0
  have hc : UInt8.ofNat t.length ≠ 0 := fun hh => by
    have := congrArg UInt8.toNat hh
    simp at this
    omega
  have e : Vec.leBytes 8 v.len = some (UInt8.ofNat t.length) :: some 0 :: List.replicate 6 (some 0) := by
    rw [h.len, Vec.leBytes, Nat.div_eq_of_lt hl]; rfl
  refine ⟨?_, ?_⟩
  · rw [Str.structMem, e]
    show scanZ (some (UInt8.ofNat t.length) :: some 0 :: _) = _
    rw [scanZ, if_neg hc, scanZ, if_pos rfl, bind_ok]
  · simp

/-- **C30** (refutation) Joining the very list that `split` returns does not give the text back: `join` takes the string objects for C
strings and reads their length fields.  For pieces of 1 to 255 characters the result has one character for
each piece, whose code is the length of the piece, joined by the separator. -/
theorem C30_join_of_split_list {E : Env} {v : Arr} {t ss : Text} (h : IsStr v t) {sep : Mem} (hs : CStr sep ss) (h0 : ss ≠ [])
    (ho : Occurs t ss) (he : ∀ p ∈ pieces t ss, p ≠ [] ∧ p.length < 256) {k : Nat} (hk : t.length < k) :
    OkOr E (t.length + (joinWith ss ((pieces t ss).map fun p => [UInt8.ofNat p.length])).length + 72) (do
      let o ← Str.split E k v sep
      Str.join E none sep ((o.getD []).map Str.structMem)) fun v' =>
        IsStr v' (joinWith ss ((pieces t ss).map fun p => [UInt8.ofNat p.length])) := by
  have h2 : ¬ [[], []] <:+ pieces t ss := fun hc => (he [] (hc.subset (by simp))).1 rfl
  have hf : (pieces t ss).filter (· ≠ []) = pieces t ss := List.filter_eq_self.2 (fun p hp => by simpa using (he p hp).1)
  refine (C29_split_partial h hs h0 ho h2 hk).bind ?_
  rintro o ⟨l, rfl, hl⟩
  rw [hf] at hl
  have hne : pieces t ss ≠ [] := by
    obtain ⟨x, y, hxy, -⟩ := pieces_acc (sep := ss) t []
    have : pieces t ss = x :: y := hxy
    simp [this]
  have hc : ∀ {l : List Arr} {ts : List Text}, List.Forall₂ IsStr l ts → (∀ p ∈ ts, p ≠ [] ∧ p.length < 256) →
      List.Forall₂ CStr (l.map Str.structMem) (ts.map fun p => [UInt8.ofNat p.length]) := by
    intro l ts h
    induction h with
    | nil => intro _; exact .nil
    | cons h1 _ ih =>
      intro hp
      exact .cons (cstr_structMem h1 (hp _ (by simp)).1 (hp _ (by simp)).2) (ih fun p hm => hp p (by simp [hm]))
  exact (C30_join (E := E) hs h0 (hc hl he) (by simp) (by simpa using hne)).2.le

example : (do let o ← Str.split exE 9 (strObj [97, 44, 98, 98] 0) (zstr [44])
              let v ← Str.join exE none (zstr [44]) ((o.getD []).map Str.structMem)
              Str.z v) = .ok [1, 44, 2] := by decide +kernel
example : ∀ p ∈ pieces [97, 44, 98, 98] [44], p ≠ [] ∧ p.length < 256 := by decide +kernel

/-- **C30** (counterexample) In debug builds an empty list terminates the program; otherwise `join` accesses the list
outside its bounds. -/
theorem C30_join_empty_list {E : Env} {v : Arr} (sep : Mem) :
    Str.join E (some v) sep [] = if E.debug then .exit .dbgAssert else .ub := by
  cases hd : E.debug with
  | true => simp [Str.join, dassert_false hd]
  | false => simp [Str.join, dassert_release hd]

example : (do let v ← Str.joinN exE none (zstr [44, 32]) [zstr [97], zstr [98, 99], zstr [100]]
              Str.z v) = .ok [97, 44, 32, 98, 99, 44, 32, 100] := by decide +kernel
example : ∀ p ∈ pieces [97, 44, 98] [44], p ≠ [] := by decide +kernel

/-! ### C31 -/

/-- **C31** (partial: the first `zr` of the whole text must come after the first `zl`, with something in between, see
`C31_right_marker_before` and `C31_nothing_between`.)  The result is the text between the first
`zl` and the first `zr` behind it. -/
theorem C31_between_partial {E : Env} {z zl zr : Mem} {t a b m : Text} (hz : CStr z t) (ha : CStr zl a) (hb : CStr zr b)
    {l : Nat} (hl : IsFirst t a l) (hr : IsFirst (t.drop (l + a.length)) b m.length)
    (hm : m <+: t.drop (l + a.length)) (hm0 : m ≠ []) (hbefore : ∀ j, j < l + a.length → ¬ OccursAt t b j)
    {s : Option Arr} (hs : ∀ v, s = some v → ∃ u, IsStr v u) :
    OkOr E (t.length + 72) (Str.splitBetween E s z zl zr) fun o => ∃ v, o = some v ∧ IsStr v m := by
  have hle := hl.1.le
  have hp : 0 < m.length := List.length_pos_iff.2 hm0
  have hr' : IsFirst t b (l + a.length + m.length) := by
    refine ⟨(occursAt_drop hle).1 hr.1, fun j hj ho => ?_⟩
    by_cases hj' : j < l + a.length
    · exact hbefore j hj' ho
    · exact hr.2 (j - (l + a.length)) (by omega) ((occursAt_drop hle).2 (by rw [Nat.add_sub_cancel' (by omega)]; exact ho))
  have := splitBetween_some_okOr (E := E) hz ha hb hl hr' (by omega) hs
  rw [Nat.add_sub_cancel_left, ← List.prefix_iff_eq_take.1 hm] at this
  exact this

/-- **C31** If one of the markers does not occur at all, the result is NULL. -/
theorem C31_missing_marker {E : Env} {z zl zr : Mem} {t a b : Text} (hz : CStr z t) (ha : CStr zl a) (hb : CStr zr b)
    (hn : ¬ Occurs t a ∨ ¬ Occurs t b) (s : Option Arr) : Str.splitBetween E s z zl zr = .ok none := by
  rcases exists_first_or_none t a with ⟨i, hi, e⟩ | ⟨ho, e⟩
  · have hb' := hn.resolve_left (fun h => h ⟨i, hi.1⟩)
    simp only [Str.splitBetween, strstr0 hz.text ha.text, e, bind_ok, strstr0 hz.text hb.text, findSub_none.2 hb']
  · simp only [Str.splitBetween, strstr0 hz.text ha.text, e, bind_ok]

/-- The destination of `split_between` after the two markers have been found: a given one, or a new one. -/
theorem splitBetween_found {E : Env} {z zl zr : Mem} {t a b : Text} (hz : CStr z t) (ha : CStr zl a) (hb : CStr zr b)
    {l r : Nat} (hl : IsFirst t a l) (hr : IsFirst t b r) {s : Option Arr} (hs : ∀ v, s = some v → ∃ u, IsStr v u) :
    ((∃ v, IsStr v [] ∧ Str.splitBetween E s z zl zr = if l < r then do
        let st ← Str.resize E v (wsub (r - l) a.length)
        let st ← Str.appendN E st (z.drop (wsub r (wsub (r - l) a.length))) (wsub (r - l) a.length)
        .ok (some st)
      else .ok none)) ∨ (Str.splitBetween E s z zl zr = .exit .alloc ∧ E.Refuses (t.length + 72)) := by
  simp only [Str.splitBetween, strstr0 hz.text ha.text, strstr0 hz.text hb.text, findSub_some.2 hl, findSub_some.2 hr, bind_ok,
    strlen_ok ha.text]
  cases s with
  | none =>
    dsimp only
    rcases createCapacity_okOr (E := E) (n := defaultInit) (by decide) (by decide) with ⟨v, e, hu, -⟩ | ⟨e, hn⟩
    · obtain ⟨v1, e1, s1, -⟩ := clear_ok hu
      exact Or.inl ⟨v1, s1, by rw [e, bind_ok, e1, bind_ok]⟩
    · exact Or.inr ⟨by rw [e, bind_exit], hn.le (by simp [defaultInit])⟩
  | some v =>
    dsimp only
    obtain ⟨u, hu⟩ := hs v rfl
    obtain ⟨v1, e1, s1, -⟩ := clear_ok hu
    exact Or.inl ⟨v1, s1, by rw [bind_ok, e1, bind_ok]⟩

/-- **C31** (refutation) If the first `zr` of the whole text is not behind the first `zl`, the result is NULL, although there may be
another `zr` behind the `zl`, as in ")(a)". -/
theorem C31_right_marker_before {E : Env} {z zl zr : Mem} {t a b : Text} (hz : CStr z t) (ha : CStr zl a) (hb : CStr zr b)
    {l r : Nat} (hl : IsFirst t a l) (hr : IsFirst t b r) (hrl : r ≤ l) {s : Option Arr}
    (hs : ∀ v, s = some v → ∃ u, IsStr v u) : OkOr E (t.length + 72) (Str.splitBetween E s z zl zr) (· = none) := by
  rcases splitBetween_found (E := E) hz ha hb hl hr hs with ⟨v, -, e⟩ | h
  · exact Or.inl ⟨none, by rw [e, if_neg (by omega)], rfl⟩
  · exact Or.inr h

theorem resize_zero {E : Env} {v : Arr} {t : Text} (hv : IsStr v t) :
    (E.debug = true → Str.resize E v 0 = .exit .dbgAssert) ∧
    (E.debug = false → OkOr E 1 (Str.resize E v 0) fun v' => IsStr v' []) := by
  refine ⟨fun hd => ?_, fun hd => ?_⟩
  · rw [Str.resize, decide_eq_false (by omega), dassert_false hd, bind_exit]
  · cases hal : E.allocOk (0 + 1) with
    | true =>
      obtain ⟨v1, e1, s1, -⟩ := resize_ok (E := E) hv (n := 0) (by omega) (Or.inr hd) hal
      exact Or.inl ⟨v1, e1, by simpa using s1⟩
    | false =>
      refine Or.inr ⟨?_, 0 + 1, by omega, hal⟩
      have w : wmul (wadd 0 1) v.elsize = 0 + 1 := by rw [hv.es, wadd_eq (by omega), wmul_one (by omega)]
      rw [Str.resize, dassert_release hd, bind_ok, hv.view, w, vtRealloc_fail (by omega) hal]
      simp only [Bool.not_false, enforce_true, bind_ok, bind_exit]

/-- **C31** (refutation) Nothing between the markers: in debug builds the program is terminated; in other builds the result is
the empty text. -/
theorem C31_nothing_between {E : Env} {z zl zr : Mem} {t a b : Text} (hz : CStr z t) (ha : CStr zl a) (hb : CStr zr b)
    {l : Nat} (hl : IsFirst t a l) (hr : IsFirst t b (l + a.length)) (h0 : a ≠ []) {s : Option Arr}
    (hs : ∀ v, s = some v → ∃ u, IsStr v u) :
    (E.debug = true → Str.splitBetween E s z zl zr = .exit .dbgAssert ∨
      (Str.splitBetween E s z zl zr = .exit .alloc ∧ E.Refuses (t.length + 72))) ∧
    (E.debug = false → OkOr E (t.length + 72) (Str.splitBetween E s z zl zr) fun o => ∃ v, o = some v ∧ IsStr v []) := by
  have hp : 0 < a.length := List.length_pos_iff.2 h0
  have hle := hr.1.le
  have hlim := hz.lim
  have w : wsub (l + a.length - l) a.length = 0 := by rw [wsub_eq (by omega) (by omega)]; omega
  rcases splitBetween_found (E := E) hz ha hb hl hr hs with ⟨v, hv, e⟩ | h
  · rw [if_pos (by omega), w] at e
    refine ⟨fun hd => Or.inl ?_, fun hd => ?_⟩
    · rw [e, (resize_zero hv).1 hd, bind_exit]
    · rw [e]
      refine ((resize_zero hv).2 hd).bind fun v1 s1 => ?_
      obtain ⟨v2, e2, s2, -⟩ := appendN_ok (E := E) (ys := []) s1 (by simp) (z := z.drop (wsub (l + a.length) 0)) ⟨_, (List.nil_append _).symm⟩ (by simp)
        (Or.inr hd) (Or.inl (by simp))
      rw [List.length_nil] at e2
      rw [e2, bind_ok]
      exact OkOr.ok ⟨v2, rfl, by simpa using s2⟩
  · exact ⟨fun _ => Or.inr h, fun _ => Or.inr h⟩

/-- **C31** (refutation) Overlapping markers, as "ab" and "bc" in "abc": the computed length is negative, and the request for so
much memory terminates the program. -/
theorem C31_overlapping_markers {E : Env} {z zl zr : Mem} {t a b : Text} (hz : CStr z t) (ha : CStr zl a) (hb : CStr zr b)
    {l r : Nat} (hl : IsFirst t a l) (hr : IsFirst t b r) (hlr : l < r) (hra : r < l + a.length) {s : Option Arr}
    (hs : ∀ v, s = some v → ∃ u, IsStr v u) : ∃ w, Str.splitBetween E s z zl zr = .exit w := by
  have hle := hl.1.le
  have hlim := hz.lim
  rcases splitBetween_found (E := E) hz ha hb hl hr hs with ⟨v, hv, e⟩ | h
  · have w : wsub (r - l) a.length = 2 ^ 64 - (l + a.length - r) := by unfold wsub; omega
    rw [if_pos hlr, w] at e
    have hn : E.allocOk (2 ^ 64 - (l + a.length - r) + 1) = false := by
      cases hq : E.allocOk (2 ^ 64 - (l + a.length - r) + 1) with
      | false => rfl
      | true => have := E.lim _ hq; omega
    rw [e, Str.resize, hv.es, hv.view, show decide (2 ^ 64 - (l + a.length - r) > 0) = true by simp; omega]
    by_cases h1 : l + a.length - r = 1
    · have w : wmul (wadd (2 ^ 64 - (l + a.length - r)) 1) 1 = 0 := by rw [h1]; unfold wadd wmul; rfl
      rw [w, vtRealloc]
      cases hd : E.debug with
      | true => exact ⟨.cAssert, by simp [cassert, hd]⟩
      | false => exact ⟨.alloc, by simp [cassert, hd]⟩
    · have w : wmul (wadd (2 ^ 64 - (l + a.length - r)) 1) 1 = 2 ^ 64 - (l + a.length - r) + 1 := by
        rw [wadd_eq (by omega), wmul_one (by omega)]
      exact ⟨.alloc, by rw [w, vtRealloc_fail (by omega) hn]; simp⟩
  · exact ⟨_, h.1⟩

example : Str.splitBetween exE none (zstr [41, 40, 97, 41]) (zstr [40]) (zstr [41]) = .ok none ∧
    IsFirst [41, 40, 97, 41] [40] 1 ∧ IsFirst [41, 40, 97, 41] [41] 0 ∧ IsFirst [97, 41] [41] 1 :=
  ⟨by decide +kernel, findSub_some.1 (by decide +kernel), findSub_some.1 (by decide +kernel), findSub_some.1 (by decide +kernel)⟩
example : Str.splitBetween exE none (zstr [40, 41]) (zstr [40]) (zstr [41]) = .exit .dbgAssert := by decide +kernel
example : Str.splitBetween exE none (zstr [97, 98, 99]) (zstr [97, 98]) (zstr [98, 99]) = .exit .cAssert ∧
    IsFirst [97, 98, 99] [97, 98] 0 ∧ IsFirst [97, 98, 99] [98, 99] 1 :=
  ⟨by decide +kernel, findSub_some.1 (by decide +kernel), findSub_some.1 (by decide +kernel)⟩
example : (do let o ← Str.splitBetween exE none (zstr [120, 40, 97, 98, 41, 121]) (zstr [40]) (zstr [41])
              match o with | some v => Str.z v | none => .ub) = .ok [97, 98] := by decide +kernel

/-! ### C32 -/

/-- **C32** If the first separator is not at the very beginning, `pop_get_first` returns the text before it, leaves the text
after it, and the two joined by the separator are the original. -/
theorem C32_pop_get_first {E : Env} {v : Arr} {t ss : Text} (h : IsStr v t) {sep : Mem} (hs : CStr sep ss) (h0 : ss ≠ [])
    {sr : Option Arr} (hsr : ∀ x, sr = some x → ∃ u, IsStr x u) {i : Nat} (hi : IsFirst t ss i) (hp : 0 < i) :
    OkOr E (capOf sr + i + 56) (Str.popGetFirst E sr v sep) fun q => ∃ x a b, q.1 = some x ∧ IsStr x a ∧ IsStr q.2 b ∧
      t = a ++ ss ++ b ∧ a.length = i := by
  refine (popGetFirst_okOr h hs h0 hsr hi hp).mono ?_
  rintro q ⟨x, e, h1, h2, -⟩
  exact ⟨x, _, _, e, h1, h2, hi.1.eq, by have := hi.1.le; simp; omega⟩

/-- **C32** (partial: the last separator found must not be at the very end, see `C32_pop_last_at_end`, and overlapping occurrences of the
separator are excluded, see `C32_pop_last_overlap`.) -/
theorem C32_pop_get_last_partial {E : Env} {v : Arr} {t ss : Text} (h : IsStr v t) {sep : Mem} (hs : CStr sep ss) (h0 : ss ≠ [])
    {sr : Option Arr} (hsr : ∀ x, sr = some x → ∃ u, IsStr x u) {l k : Nat} (hl : IsLast t ss l) (hno : NoOverlap t ss)
    (hp : l + ss.length < t.length) (hk : t.length < k) :
    OkOr E (capOf sr + t.length + 56) (Str.popGetLast E k sr v sep) fun q => ∃ x a b, q.1 = some x ∧ IsStr x b ∧ IsStr q.2 a ∧
      t = a ++ ss ++ b ∧ a.length = l := by
  have hle := hl.1.le
  have : (positions t ss).getLast? = some l := by
    cases hg : (positions t ss).getLast? with
    | none => exact absurd (List.getLast?_eq_none_iff.1 hg) (positions_ne_nil h0 ⟨l, hl.1⟩)
    | some l' =>
      have h' := positions_last_isLast h0 hno hg
      rcases Nat.lt_trichotomy l l' with hc | hc | hc
      · exact absurd h'.1 (hl.2 l' hc)
      · rw [hc]
      · exact absurd hl.1 (h'.2 l hc)
  refine (popGetLast_okOr h hs h0 hsr this hp hk).mono ?_
  rintro q ⟨x, e, h1, h2⟩
  exact ⟨x, _, _, e, h1, h2, hl.1.eq, by simp; omega⟩

/-- **C32** If the separator does not occur, both functions return what they were given and change nothing. -/
theorem C32_pop_nothing {E : Env} {v : Arr} {t ss : Text} (h : IsStr v t) {sep : Mem} (hs : CStr sep ss) (ho : ¬ Occurs t ss)
    (sr : Option Arr) (k : Nat) :
    Str.popGetFirst E sr v sep = .ok (sr, v) ∧ Str.popGetLast E k sr v sep = .ok (sr, v) := by
  simp only [Str.popGetFirst, Str.popGetLast, strlen_ok hs.text, strstr0 h.text hs.text, findSub_none.2 ho, bind_ok]
  constructor <;> split <;> rfl

/-- **C32** (refutation) A separator at the end, as in "a,": it is not popped, the string is unchanged and no text is
returned (`sr` is what was given). -/
theorem C32_pop_last_at_end {E : Env} {v : Arr} {t ss : Text} (h : IsStr v t) {sep : Mem} (hs : CStr sep ss) (h0 : ss ≠ [])
    (sr : Option Arr) {l k : Nat} (hl : (positions t ss).getLast? = some l) (hp : l + ss.length = t.length) (hk : t.length < k) :
    Str.popGetLast E k sr v sep = .ok (sr, v) := by
  have hlim := h.lim
  have hc := h.le
  have hz0 : 0 < ss.length := List.length_pos_iff.2 h0
  obtain ⟨i, hi⟩ : ∃ i, IsFirst t ss i := by
    rcases exists_first_or_none t ss with ⟨i, hi, -⟩ | ⟨hno, -⟩
    · exact ⟨i, hi⟩
    · rw [positions_none hno] at hl; cases hl
  have w : wsub (t.length - l) ss.length = 0 := by rw [wsub_eq (by omega) (by omega)]; omega
  simp only [Str.popGetLast, strlen_ok hs.text, bind_ok, strstr0 h.text hs.text, findSub_some.2 hi,
    lastInstance_first h.text hs.text h0 hi hk hl, strlenAt_ok h.text (show l ≤ t.length by omega), w]
  rw [if_neg (by rw [h.len]; omega), if_pos trivial]

/-- **C32** (exact) `pop_get_last` cuts at the last of the occurrences found from the left without overlaps.  If the last occurrence
of all is another one, as in "xaaay" with the separator "aa", the text returned is not the one behind
it. -/
theorem C32_pop_last_overlap {E : Env} {v : Arr} {t ss : Text} (h : IsStr v t) {sep : Mem} (hs : CStr sep ss) (h0 : ss ≠ [])
    {sr : Option Arr} (hsr : ∀ x, sr = some x → ∃ u, IsStr x u) {l m k : Nat} (hl : (positions t ss).getLast? = some l)
    (hm : IsLast t ss m) (hlm : l ≠ m) (hk : t.length < k) :
    OkOr E (capOf sr + t.length + 56) (Str.popGetLast E k sr v sep) fun q => ∃ x b, q.1 = some x ∧ IsStr x b ∧ b.length = t.length - (l + ss.length) ∧
      IsStr q.2 (t.take l) ∧ l < m := by
  obtain ⟨h1, -⟩ := positions_last h0 t.length t l (Nat.le_refl _) hl
  have hlt : l < m := by
    rcases Nat.lt_trichotomy l m with hc | hc | hc
    · exact hc
    · exact absurd hc hlm
    · exact absurd h1 (hm.2 l hc)
  have hle := hm.1.le
  refine (popGetLast_okOr h hs h0 hsr hl (by omega) hk).mono ?_
  rintro q ⟨x, e, hx, hq⟩
  exact ⟨x, _, e, hx, by simp, hq, hlt⟩

example : Str.popGetLast exE 9 none (strObj [97, 44] 0) (zstr [44]) = .ok (none, strObj [97, 44] 0) ∧
    (positions [97, 44] [44]).getLast? = some 1 := by decide +kernel
example : (Str.popGetLast exE 9 none (strObj [120, 97, 97, 97, 121] 0) (zstr [97, 97])).mapOk
      (fun q => (q.1.map Str.z, Str.z q.2)) = .ok (some (.ok [97, 121]), .ok [120]) ∧
    OccursAt [120, 97, 97, 97, 121] [97, 97] 2 :=
  ⟨by decide +kernel, [120, 97], [121], rfl, rfl⟩

example : (Str.popGetFirst exE none (strObj [97, 44, 98, 44, 99] 0) (zstr [44])).mapOk
      (fun q => (q.1.map Str.z, Str.z q.2)) = .ok (some (.ok [97]), .ok [98, 44, 99]) := by decide +kernel
example : (Str.popGetLast exE 9 (some (strObj [97] 0)) (strObj [97, 44, 98, 44, 99, 99] 0) (zstr [44])).mapOk
      (fun q => (q.1.map Str.z, Str.z q.2)) = .ok (some (.ok [99, 99]), .ok [97, 44, 98]) := by decide +kernel

/-! ### C33 -/

/-- **C33** Equality of strings and of C strings is equality of the texts. -/
theorem C33_equals {v w : Arr} {t u : Text} (h : IsStr v t) (h' : IsStr w u) :
    Str.equals v w = .ok (decide (t = u)) := by
  unfold Str.equals
  split
  · rename_i hl
    rw [h.len, h'.len] at hl
    rw [decide_eq_false fun e => hl (by rw [e])]
  · rename_i hl
    simp only [h.len, h'.len, Decidable.not_not] at hl
    rw [h.len, strncmpEq_ok _ h.text h'.text, List.take_length, hl, List.take_length]

theorem C33_equals_z {z1 z2 : Mem} {a b : Text} (h1 : CStr z1 a) (h2 : CStr z2 b) :
    Str.equalsZ z1 z2 = .ok (decide (a = b)) := by
  simp only [Str.equalsZ, strlen_ok h1.text, strlen_ok h2.text, bind_ok]
  split
  · rename_i hl
    rw [decide_eq_false fun e => hl (by rw [e])]
  · rename_i hl
    simp only [Decidable.not_not] at hl
    rw [strncmpEq_ok _ h1.text h2.text, List.take_length, hl, List.take_length]

/-- **C33** `equals_n` compares the first `n` characters, for `n` at most both lengths (a larger `n` terminates the program). -/
theorem C33_equals_n {E : Env} {z1 z2 : Mem} {a b : Text} (h1 : CStr z1 a) (h2 : CStr z2 b) {n : Nat} (hn : 0 < n) :
    Str.equalsN E z1 z2 n =
      if n ≤ a.length ∧ n ≤ b.length then .ok (decide (a.take n = b.take n)) else .exit .enforce := by
  simp only [Str.equalsN, hn, dassert_true, bind_ok, strlen_ok h1.text, strlen_ok h2.text]
  by_cases ha : n ≤ a.length
  · by_cases hb : n ≤ b.length
    · simp [ha, hb, strncmpEq_ok _ h1.text h2.text]
    · simp [ha, hb]
  · simp [ha]

/-- **C33** `starts_with` and `ends_with` decide whether the second text is a prefix / suffix of the first. -/
theorem C33_starts_with {v : Arr} {t ss : Text} (h : IsStr v t) {sub : Mem} (hs : CStr sub ss) :
    ∃ r, Str.startsWith v sub = .ok r ∧ (r = true ↔ ss <+: t) := by
  simp only [Str.startsWith, strlen_ok hs.text, bind_ok, h.len]
  split
  · rename_i hl
    refine ⟨false, rfl, ?_⟩
    simp only [Bool.false_eq_true, false_iff]
    intro hp
    have := hp.length_le
    omega
  · refine ⟨_, strncmpEq_ok _ h.text hs.text, ?_⟩
    rw [List.take_length, decide_eq_true_iff, List.prefix_iff_eq_take, eq_comm]

theorem C33_ends_with {v : Arr} {t ss : Text} (h : IsStr v t) {sub : Mem} (hs : CStr sub ss) :
    ∃ r, Str.endsWith v sub = .ok r ∧ (r = true ↔ ss <:+ t) := by
  simp only [Str.endsWith, strlen_ok hs.text, bind_ok, h.len]
  split
  · rename_i hl
    refine ⟨false, rfl, ?_⟩
    simp only [Bool.false_eq_true, false_iff]
    intro hp
    have := hp.length_le
    omega
  · rename_i hl
    refine ⟨_, strncmpEq_ok _ (scanZ_drop h.text (by omega)) hs.text, ?_⟩
    rw [List.take_length, decide_eq_true_iff, List.suffix_iff_eq_drop, List.take_of_length_le (by simp; omega), eq_comm]

example : Str.equals (strObj [97, 98] 0) (strObj [97, 98] 3) = .ok true := by decide +kernel
example : Str.equals (strObj [97, 98] 0) (strObj [97, 99] 0) = .ok false := by decide +kernel
example : Str.endsWith (strObj [97, 98, 99] 0) (zstr [98, 99]) = .ok true := by decide +kernel
example : Str.equalsN exE (zstr [97, 98]) (zstr [97, 99]) 1 = .ok true := by decide +kernel

/-! ### C34 -/

/-- **C34** `is_numeric` is true exactly for texts of digits and dots. -/
theorem C34_is_numeric {v : Arr} {t : Text} (h : IsStr v t) :
    ∃ r, Str.isNumeric v = .ok r ∧ (r = true ↔ ∀ c ∈ t, (48 ≤ c ∧ c ≤ 57) ∨ c = 46) := by
  refine ⟨((t.drop 0).take t.length).all fun x => isdigit x || x == 46, ?_, ?_⟩
  · rw [Str.isNumeric, h.len]
    exact numericLoop_ok h.text t.length 0 (by omega)
  · simp [List.all_eq_true, isdigit]

/-- **C34** `is_numeric_z` on the first `n > 0` characters of a C string. -/
theorem C34_is_numeric_z {E : Env} {z : Mem} {t : Text} (h : CStr z t) {n : Nat} (hn : 0 < n) (hl : n ≤ t.length) :
    ∃ r, Str.isNumericZ E z n = .ok r ∧ (r = true ↔ ∀ c ∈ t.take n, (48 ≤ c ∧ c ≤ 57) ∨ c = 46) := by
  refine ⟨((t.drop 0).take n).all fun x => isdigit x || x == 46, ?_, ?_⟩
  · simp only [Str.isNumericZ, gt_iff_lt, hn, decide_true, dassert_true, bind_ok]
    exact numericLoop_ok h.text n 0 (by omega)
  · simp [List.all_eq_true, isdigit]

/-- **C34** Conversion to upper case: the text becomes its characterwise upper case, everything else stays. -/
theorem C34_to_uppercase {v : Arr} {t : Text} (h : IsStr v t) :
    ∃ v', Str.toUppercase v = .ok v' ∧ IsStr v' (t.map upper) ∧ v'.cap = v.cap := by
  obtain ⟨v', e, s, c, -⟩ := apply_ok (f := fun x _ => toupper x) h (fun x _ hx => by rw [toupper_eq]; exact upper_ne_zero x hx)
  refine ⟨v', e, ?_, c⟩
  rw [mapIdx_const] at s
  rwa [show toupper = upper from funext toupper_eq] at s

/-- **C34** Conversion to lower case. -/
theorem C34_to_lowercase {v : Arr} {t : Text} (h : IsStr v t) :
    ∃ v', Str.toLowercase v = .ok v' ∧ IsStr v' (t.map lower) ∧ v'.cap = v.cap := by
  obtain ⟨v', e, s, c, -⟩ := apply_ok (f := fun x _ => tolower x) h (fun x _ hx => by rw [tolower_eq]; exact lower_ne_zero x hx)
  refine ⟨v', e, ?_, c⟩
  rw [mapIdx_const] at s
  rwa [show tolower = lower from funext tolower_eq] at s

/-- **C34** The conversions change exactly the ASCII letters of the other case (into each other), and converting twice is
converting once. -/
theorem C34_case_spec (c : UInt8) :
    (upper c ≠ c ↔ 97 ≤ c ∧ c ≤ 122) ∧ (lower c ≠ c ↔ 65 ≤ c ∧ c ≤ 90) ∧
    (97 ≤ c ∧ c ≤ 122 → 65 ≤ upper c ∧ upper c ≤ 90 ∧ lower (upper c) = c) ∧
    (65 ≤ c ∧ c ≤ 90 → 97 ≤ lower c ∧ lower c ≤ 122 ∧ upper (lower c) = c) ∧
    upper (upper c) = upper c ∧ lower (lower c) = lower c := by
  have := uint8_ext (p := fun c => decide ((upper c ≠ c ↔ 97 ≤ c ∧ c ≤ 122) ∧ (lower c ≠ c ↔ 65 ≤ c ∧ c ≤ 90) ∧
    (97 ≤ c ∧ c ≤ 122 → 65 ≤ upper c ∧ upper c ≤ 90 ∧ lower (upper c) = c) ∧
    (65 ≤ c ∧ c ≤ 90 → 97 ≤ lower c ∧ lower c ≤ 122 ∧ upper (lower c) = c) ∧
    upper (upper c) = upper c ∧ lower (lower c) = lower c)) (q := fun _ => true) (by decide +kernel) c
  simpa only [decide_eq_true_iff] using this

/-- **C34** Idempotence on texts. -/
theorem C34_case_idempotent (t : Text) : (t.map upper).map upper = t.map upper ∧ (t.map lower).map lower = t.map lower := by
  constructor <;> rw [List.map_map] <;> refine List.map_congr_left fun c _ => ?_
  · exact (C34_case_spec c).2.2.2.2.1
  · exact (C34_case_spec c).2.2.2.2.2

example : (Str.toUppercase (strObj [97, 66, 57, 122] 0)).mapOk Str.z = .ok (.ok [65, 66, 57, 90]) := by decide +kernel
example : Str.isNumeric (strObj [49, 46, 50] 0) = .ok true := by decide +kernel
example : Str.isNumeric (strObj [49, 45, 50] 0) = .ok false := by decide +kernel

end Vita
