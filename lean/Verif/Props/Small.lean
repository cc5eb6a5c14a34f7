import Verif.Model.Small
import Verif.Lemmas.Mem
import Verif.Lemmas.Chunks
import Verif.Props.Vec
import Mathlib.Order.Defs.LinearOrder
import Mathlib.Order.Lattice
import Mathlib.Tactic.Ring
/-!
# Properties C37 (spans), C40 (index conversions), C41 (comparison), C68, C69 (core utilities)
-/

namespace Vita
open Out

seal wadd wsub wmul

/-! ### C37 -/

theorem mul_lt_len {i n es L : Nat} (h : i < n) (hL : n * es ≤ L) : i * es + es ≤ L := by
  have : (i + 1) * es ≤ n * es := Nat.mul_le_mul_right _ h
  rw [Nat.succ_mul] at this
  omega

/-- An array in memory: its elements one after the other. -/
structure IsArray (m : Mem) (es : Nat) (l : List (List Byte)) : Prop where
  mem : m = l.flatten
  size : ∀ x ∈ l, x.length = es
  pos : 0 < es
  lim : m.length < 2 ^ 56

theorem IsArray.length {m : Mem} {es : Nat} {l : List (List Byte)} (h : IsArray m es l) : m.length = l.length * es := by
  rw [h.mem, flatten_length es l h.size]

theorem fromTo_ok {E : Env} {m : Mem} {es : Nat} {l : List (List Byte)} (h : IsArray m es l) {i j : Nat} (hij : i ≤ j)
    (hj : j ≤ l.length) (h0 : 0 < i ∨ E.debug = false) :
    Span.fromTo E m i j es = .ok ⟨i * es, j - i, es⟩ := by
  have hl := h.length
  have hlim := h.lim
  have hle : i * es ≤ l.length * es := Nat.mul_le_mul_right _ (by omega)
  have hjl : j ≤ l.length * es := le_trans hj (Nat.le_mul_of_pos_right _ h.pos)
  have w1 : wmul i es = i * es := wmul_eq (by omega)
  have w2 : wsub j i = j - i := wsub_eq hij (by omega)
  have hd : dassert E (decide (i > 0)) = .ok () ∧ dassert E (decide (j > 0)) = .ok () := by
    rcases h0 with h0 | h0
    · rw [decide_eq_true h0, decide_eq_true (show j > 0 by omega)]
      simp
    · exact ⟨dassert_release h0 _, dassert_release h0 _⟩
  simp only [Span.fromTo, hd.1, hd.2, decide_eq_true (show es > 0 from h.pos), dassert_true, bind_ok, w1, w2]
  rw [if_neg (by omega)]

/-- **C37** (partial: the window must not begin at 0 in debug builds, see `C37_window_at_zero_rejected`.)  The window from `i` to
`j` has length `j - i`; its `k`-th element is the `(i + k)`-th element of the array; in debug builds an index outside terminates the program. -/
theorem C37_get_partial {E : Env} {m : Mem} {es : Nat} {l : List (List Byte)} (h : IsArray m es l) {i j : Nat} (hij : i ≤ j)
    (hj : j ≤ l.length) (h0 : 0 < i ∨ E.debug = false) :
    ∃ s, Span.fromTo E m i j es = .ok s ∧ Span.length s = j - i ∧
      (∀ k (hk : k < j - i), Span.get E m s k = .ok (l[i + k]'(by omega))) ∧
      (E.debug = true → ∀ k, j - i ≤ k → Span.get E m s k = .exit .dbgAssert) := by
  refine ⟨_, fromTo_ok h hij hj h0, rfl, ?_, ?_⟩
  · intro k hk
    have hl := h.length
    have hlim := h.lim
    have hb := mul_lt_len (show i + k < l.length by omega) (le_of_eq hl.symm)
    rw [Nat.add_mul] at hb
    have w1 : wmul k es = k * es := wmul_eq (by omega)
    simp only [Span.get, decide_eq_true hk, dassert_true, bind_ok, w1]
    rw [readN_ok (by omega), ← Nat.add_mul, h.mem]
    have := drop_take_chunk es l [] h.size (i + k) (by omega)
    rw [List.append_nil] at this
    rw [this]
  · intro hD k hk
    simp only [Span.get, decide_eq_false (show ¬ k < j - i by omega), dassert_false hD, bind_exit]

/-- **C37** (partial, as above.)  Setting the `k`-th element of the window sets the `(i + k)`-th element of the array and nothing else;
in debug builds an index outside terminates the program. -/
theorem C37_set_partial {E : Env} {m : Mem} {es : Nat} {l : List (List Byte)} (h : IsArray m es l) {i j : Nat} (hij : i ≤ j)
    (hj : j ≤ l.length) (h0 : 0 < i ∨ E.debug = false) {x : List Byte} (hx : x.length = es) (rest : Mem) :
    ∃ s, Span.fromTo E m i j es = .ok s ∧
      (∀ k, k < j - i → ∃ m', Span.set E m s (x ++ rest) k = .ok m' ∧ IsArray m' es (l.set (i + k) x)) ∧
      (E.debug = true → ∀ k, j - i ≤ k → Span.set E m s (x ++ rest) k = .exit .dbgAssert) := by
  refine ⟨_, fromTo_ok h hij hj h0, ?_, ?_⟩
  · intro k hk
    have hl := h.length
    have hlim := h.lim
    have hb := mul_lt_len (show i + k < l.length by omega) (le_of_eq hl.symm)
    rw [Nat.add_mul] at hb
    have w1 : wmul k es = k * es := wmul_eq (by omega)
    have hs : ∀ y ∈ l.set (i + k) x, y.length = es := by
      intro y hy
      rcases List.mem_or_eq_of_mem_set hy with hy | rfl
      · exact h.size y hy
      · exact hx
    have e : m.take (i * es + k * es) ++ (x ++ rest).take es ++ m.drop (i * es + k * es + es) =
        (l.set (i + k) x).flatten := by
      rw [List.take_append_of_le_length (l₁ := x) (by omega), List.take_of_length_le (l := x) (by omega)]
      rw [show i * es + k * es + es = (i + k + 1) * es by ring, ← Nat.add_mul, h.mem, flatten_take es l h.size,
        flatten_drop es l h.size, List.set_eq_take_append_cons_drop, if_pos (by omega)]
      simp
    refine ⟨_, ?_, ⟨rfl, hs, h.pos, ?_⟩⟩
    · simp only [Span.set, decide_eq_true hk, dassert_true, bind_ok, w1]
      rw [memcpyIn_ok (by simp; omega) (by omega), e]
    · rw [flatten_length es _ hs, List.length_set, ← hl]
      exact hlim
  · intro hD k hk
    simp only [Span.set, decide_eq_false (show ¬ k < j - i by omega), dassert_false hD, bind_exit]

/-- **C37** (counterexample) In debug builds no window beginning at 0 can be made. -/
theorem C37_window_at_zero_rejected {E : Env} (hD : E.debug = true) (m : Mem) (j es : Nat) :
    Span.fromTo E m 0 j es = .exit .dbgAssert := by
  simp [Span.fromTo, dassert_false hD]

/-- **C37** (counterexample to a sensible treatment of inverted windows) With `j < i` the window has length `2^64 - (i - j)`, so
no index below that is rejected. -/
theorem C37_inverted_window {E : Env} {m : Mem} {es i j : Nat} (hes : 0 < es) (h0 : 0 < j) (hij : j < i) (hi : i < 2 ^ 56)
    (hb : i * es ≤ m.length) (hm : m.length < 2 ^ 56) :
    ∃ s, Span.fromTo E m i j es = .ok s ∧ Span.length s = 2 ^ 64 - (i - j) := by
  have w1 : wmul i es = i * es := wmul_eq (by omega)
  refine ⟨⟨i * es, 2 ^ 64 - (i - j), es⟩, ?_, rfl⟩
  have w2 : wsub j i = 2 ^ 64 - (i - j) := by unfold wsub; omega
  simp only [Span.fromTo, decide_eq_true (show i > 0 by omega), decide_eq_true (show j > 0 from h0),
    decide_eq_true (show es > 0 from hes), dassert_true, bind_ok, w1, w2]
  rw [if_neg (by omega)]

/-- **C37** A span over a whole array shows its elements. -/
theorem C37_whole {E : Env} {m : Mem} {es : Nat} {l : List (List Byte)} (h : IsArray m es l) (h0 : l ≠ []) :
    ∃ s, Span.from_ E l.length es = .ok s ∧ Span.length s = l.length ∧
      ∀ k (hk : k < l.length), Span.get E m s k = .ok l[k] := by
  have hp : l.length > 0 := List.length_pos_iff.2 h0
  refine ⟨⟨0, l.length, es⟩, ?_, rfl, ?_⟩
  · simp only [Span.from_, decide_eq_true hp, decide_eq_true (show es > 0 from h.pos), dassert_true, bind_ok]
  · intro k hk
    have hl := h.length
    have hlim := h.lim
    have hb := mul_lt_len hk (le_of_eq hl.symm)
    have w1 : wmul k es = k * es := wmul_eq (by omega)
    simp only [Span.get, decide_eq_true hk, dassert_true, bind_ok, w1, Nat.zero_add]
    rw [readN_ok (by omega), h.mem]
    have := drop_take_chunk es l [] h.size k hk
    rw [List.append_nil] at this
    rw [this]

/-- An array of three two-byte elements. -/
example : IsArray [some 1, some 2, some 3, some 4, some 5, some 6] 2 [[some 1, some 2], [some 3, some 4], [some 5, some 6]] :=
  ⟨rfl, by simp, by omega, by simp⟩
example : (do let s ← Span.fromTo exE [some 1, some 2, some 3, some 4, some 5, some 6] 1 3 2
              Span.get exE [some 1, some 2, some 3, some 4, some 5, some 6] s 1) = .ok [some 5, some 6] := by decide +kernel

/-! ### C40 -/

/-- **C40** Two-dimensional coordinates are recovered from the flat index. -/
theorem C40_2d_inverse {row col ncols : Nat} (hc : col < ncols) (hfit : ncols * row + col < 2 ^ 64) :
    Index.from1d2 (Index.to1d2 row col ncols) ncols = .ok (row, col) := by
  have hn : 0 < ncols := by omega
  have e : Index.to1d2 row col ncols = ncols * row + col := by
    rw [Index.to1d2, wmul_eq (by omega), wadd_eq hfit]
  rw [e]
  simp only [Index.from1d2, Index.wdiv, Index.wmod, if_neg (show ¬ ncols = 0 by omega), bind_ok]
  rw [Nat.mul_add_div hn, Nat.mul_add_mod, Nat.div_eq_of_lt hc, Nat.mod_eq_of_lt hc, Nat.add_zero]

/-- **C40** Every flat index is recovered from its two-dimensional coordinates, which are in range. -/
theorem C40_2d_inverse' {idx ncols : Nat} (hi : idx < 2 ^ 64) (hn : 0 < ncols) :
    ∃ row col, Index.from1d2 idx ncols = .ok (row, col) ∧ col < ncols ∧ Index.to1d2 row col ncols = idx := by
  have h := Nat.div_add_mod idx ncols
  refine ⟨idx / ncols, idx % ncols, ?_, Nat.mod_lt _ hn, ?_⟩
  · simp only [Index.from1d2, Index.wdiv, Index.wmod, if_neg (show ¬ ncols = 0 by omega), bind_ok]
  · rw [Index.to1d2, wmul_eq (by omega), wadd_eq (by omega)]
    exact h

/-- **C40** Three-dimensional coordinates are recovered from the flat index. -/
theorem C40_3d_inverse {row col depth nrows ncols : Nat} (hr : row < nrows) (hc : col < ncols) (hd : nrows * ncols < 2 ^ 64)
    (hfit : depth * ncols * nrows + row * ncols + col < 2 ^ 64) :
    Index.from1d3 (Index.to1d3 row col depth nrows ncols) nrows ncols = .ok (row, col, depth) := by
  have hn : 0 < ncols := by omega
  have hnr : 0 < nrows := by omega
  have h1 : depth * ncols ≤ depth * ncols * nrows := Nat.le_mul_of_pos_right _ hnr
  have e : Index.to1d3 row col depth nrows ncols = depth * ncols * nrows + row * ncols + col := by
    rw [Index.to1d3, wmul_eq (a := depth) (by omega), wmul_eq (by omega), wmul_eq (a := row) (by omega), wadd_eq (a := _ * _) (by omega),
      wadd_eq hfit]
  have hlt : row * ncols + col < nrows * ncols := by
    have : (row + 1) * ncols ≤ nrows * ncols := Nat.mul_le_mul_right _ hr
    rw [Nat.succ_mul] at this
    omega
  have e2 : depth * ncols * nrows + row * ncols + col = nrows * ncols * depth + (row * ncols + col) := by ring
  have hp : 0 < nrows * ncols := Nat.mul_pos hnr hn
  have e3 : depth * nrows * ncols = nrows * ncols * depth := by ring
  have h4 : depth * nrows ≤ depth * nrows * ncols := Nat.le_mul_of_pos_right _ hn
  have hdiv : (nrows * ncols * depth + (row * ncols + col)) / (nrows * ncols) = depth := by
    rw [Nat.mul_add_div hp, Nat.div_eq_of_lt hlt, Nat.add_zero]
  rw [e, e2]
  simp only [Index.from1d3, Index.wdiv, Index.wmod, wmul_eq hd, if_neg (show ¬ nrows * ncols = 0 by omega),
    if_neg (show ¬ ncols = 0 by omega), bind_ok, hdiv]
  rw [wmul_eq (a := depth) (by omega), wmul_eq (a := depth * nrows) (by omega), e3, wsub_eq (by omega) (by omega), Nat.add_sub_cancel_left]
  rw [Nat.mul_comm row, Nat.mul_add_div hn, Nat.mul_add_mod, Nat.div_eq_of_lt hc, Nat.mod_eq_of_lt hc, Nat.add_zero]

/-- **C40** The conversions from a flat index are undefined (a division by zero) exactly for shapes without columns or rows, and in three dimensions also if
a layer has a multiple of 2^64 elements. -/
theorem C40_undefined_exactly {idx nrows ncols : Nat} :
    (Index.from1d2 idx ncols = .ub ↔ ncols = 0) ∧ (Index.from1d3 idx nrows ncols = .ub ↔ 2 ^ 64 ∣ nrows * ncols) := by
  constructor
  · unfold Index.from1d2 Index.wdiv Index.wmod
    by_cases h : ncols = 0 <;> simp [h]
  · have e : 2 ^ 64 ∣ nrows * ncols ↔ wmul nrows ncols = 0 := by unfold wmul; exact Nat.dvd_iff_mod_eq_zero
    rw [e]
    unfold Index.from1d3 Index.wdiv Index.wmod
    by_cases h : wmul nrows ncols = 0
    · simp [h]
    · have : ncols ≠ 0 := by
        rintro rfl
        exact h (by simp [wmul])
      simp [h, this]

example : Index.from1d3 5 0 3 = .ub ∧ Index.from1d3 5 (2 ^ 62) 4 = .ub ∧ Index.from1d3 5 1 3 = .ok (0, 2, 1) := by decide +kernel

/-- **C40** Every flat index is recovered from its three-dimensional coordinates, which are in range. -/
theorem C40_3d_inverse' {idx nrows ncols : Nat} (hi : idx < 2 ^ 64) (hnr : 0 < nrows) (hn : 0 < ncols)
    (hd : nrows * ncols < 2 ^ 64) :
    ∃ row col depth, Index.from1d3 idx nrows ncols = .ok (row, col, depth) ∧ row < nrows ∧ col < ncols ∧
      Index.to1d3 row col depth nrows ncols = idx := by
  have hp : 0 < nrows * ncols := Nat.mul_pos hnr hn
  have h1 := Nat.div_add_mod idx (nrows * ncols)
  have hm := Nat.mod_lt idx hp
  have h2 := Nat.div_add_mod (idx % (nrows * ncols)) ncols
  have hm2 := Nat.mod_lt (idx % (nrows * ncols)) hn
  have hrow : idx % (nrows * ncols) / ncols < nrows := by
    rw [Nat.div_lt_iff_lt_mul hn]; exact hm
  have e : idx / (nrows * ncols) * ncols * nrows + idx % (nrows * ncols) / ncols * ncols + idx % (nrows * ncols) % ncols = idx := by
    have : idx / (nrows * ncols) * ncols * nrows = nrows * ncols * (idx / (nrows * ncols)) := by ring
    have h3 : idx % (nrows * ncols) / ncols * ncols = ncols * (idx % (nrows * ncols) / ncols) := Nat.mul_comm ..
    rw [this, h3]
    omega
  have hfit : idx / (nrows * ncols) * ncols * nrows + idx % (nrows * ncols) / ncols * ncols + idx % (nrows * ncols) % ncols < 2 ^ 64 := by
    rw [e]; exact hi
  have h3 := C40_3d_inverse hrow hm2 hd hfit
  have e3 : Index.to1d3 (idx % (nrows * ncols) / ncols) (idx % (nrows * ncols) % ncols) (idx / (nrows * ncols)) nrows ncols = idx := by
    generalize idx / (nrows * ncols) = d at *
    generalize idx % (nrows * ncols) / ncols = r at *
    generalize idx % (nrows * ncols) % ncols = c at *
    have h4 : d * ncols ≤ d * ncols * nrows := Nat.le_mul_of_pos_right _ hnr
    rw [Index.to1d3, wmul_eq (a := d) (by omega), wmul_eq (a := d * ncols) (by omega), wmul_eq (a := r) (by omega),
      wadd_eq (a := _ * _) (by omega), wadd_eq hfit, e]
  rw [e3] at h3
  exact ⟨_, _, _, h3, hrow, hm2, e3⟩

/-- **C40** Distinct coordinates have distinct flat indices. -/
theorem C40_2d_injective {r c r' c' ncols : Nat} (hc : c < ncols) (hc' : c' < ncols) (h : ncols * r + c < 2 ^ 64)
    (h' : ncols * r' + c' < 2 ^ 64) (he : Index.to1d2 r c ncols = Index.to1d2 r' c' ncols) : r = r' ∧ c = c' := by
  have h1 := C40_2d_inverse hc h
  rw [he, C40_2d_inverse hc' h'] at h1
  simpa [eq_comm] using h1

theorem C40_3d_injective {r c d r' c' d' nrows ncols : Nat} (hr : r < nrows) (hr' : r' < nrows) (hc : c < ncols) (hc' : c' < ncols)
    (hd : nrows * ncols < 2 ^ 64) (h : d * ncols * nrows + r * ncols + c < 2 ^ 64) (h' : d' * ncols * nrows + r' * ncols + c' < 2 ^ 64)
    (he : Index.to1d3 r c d nrows ncols = Index.to1d3 r' c' d' nrows ncols) : r = r' ∧ c = c' ∧ d = d' := by
  have h1 := C40_3d_inverse hr hc hd h
  rw [he, C40_3d_inverse hr' hc' hd h'] at h1
  simpa [eq_comm] using h1

example : Index.to1d3 1 2 3 4 5 = 67 ∧ Index.from1d3 67 4 5 = .ok (1, 2, 3) := by decide +kernel

/-! ### C41 -/

section
variable {α : Type} [LinearOrder α]

/-- **C41** The minimum is one of the arguments and a lower bound of both. -/
theorem C41_min (x y : α) : (Cmp.min x y = x ∨ Cmp.min x y = y) ∧ Cmp.min x y ≤ x ∧ Cmp.min x y ≤ y := by
  unfold Cmp.min
  split
  · exact ⟨.inl rfl, le_rfl, le_of_lt ‹_›⟩
  · exact ⟨.inr rfl, not_lt.1 ‹_›, le_rfl⟩

/-- **C41** The maximum is one of the arguments and an upper bound of both. -/
theorem C41_max (x y : α) : (Cmp.max x y = x ∨ Cmp.max x y = y) ∧ x ≤ Cmp.max x y ∧ y ≤ Cmp.max x y := by
  unfold Cmp.max
  split
  · exact ⟨.inl rfl, le_rfl, le_of_lt ‹_›⟩
  · exact ⟨.inr rfl, not_lt.1 ‹_›, le_rfl⟩

theorem cmp_min_eq (x y : α) : Cmp.min x y = Min.min x y := by
  obtain ⟨h, h1, h2⟩ := C41_min x y
  apply le_antisymm (le_min h1 h2)
  rcases h with h | h <;> rw [h]
  · exact min_le_left ..
  · exact min_le_right ..

theorem cmp_max_eq (x y : α) : Cmp.max x y = Max.max x y := by
  obtain ⟨h, h1, h2⟩ := C41_max x y
  apply le_antisymm _ (max_le h1 h2)
  rcases h with h | h <;> rw [h]
  · exact le_max_left ..
  · exact le_max_right ..

theorem clamp_eq (x l h : α) : Cmp.clamp x l h = max l (min x h) := by rw [Cmp.clamp, cmp_max_eq, cmp_min_eq]

/-- **C41** With `l ≤ h`, clamping gives a value between the bounds; a value already there is kept; a value outside becomes the bound it
is beyond. -/
theorem C41_clamp {l h : α} (hlh : l ≤ h) (x : α) :
    l ≤ Cmp.clamp x l h ∧ Cmp.clamp x l h ≤ h ∧ (l ≤ x → x ≤ h → Cmp.clamp x l h = x) ∧
      (x < l → Cmp.clamp x l h = l) ∧ (h < x → Cmp.clamp x l h = h) := by
  rw [clamp_eq]
  refine ⟨le_max_left .., max_le hlh (min_le_right ..), ?_, ?_, ?_⟩
  · intro h1 h2
    rw [min_eq_left h2, max_eq_right h1]
  · intro h1
    exact max_eq_left (le_trans (min_le_left ..) h1.le)
  · intro h1
    rw [min_eq_right h1.le, max_eq_right hlh]

/-- **C41** Clamping is idempotent and monotone. -/
theorem C41_clamp_idempotent {l h : α} (hlh : l ≤ h) (x : α) : Cmp.clamp (Cmp.clamp x l h) l h = Cmp.clamp x l h := by
  obtain ⟨h1, h2, -⟩ := C41_clamp hlh x
  exact (C41_clamp hlh _).2.2.1 h1 h2

theorem C41_clamp_monotone (l h : α) {x y : α} (hxy : x ≤ y) : Cmp.clamp x l h ≤ Cmp.clamp y l h := by
  rw [clamp_eq, clamp_eq]
  exact max_le_max le_rfl (min_le_min hxy le_rfl)

/-- **C41** With the bounds the wrong way round the lower one is returned for every value (the documentation, comparison.h:57, promises the upper one for
values beyond both). -/
theorem C41_clamp_reversed {l h : α} (hlh : h < l) (x : α) : Cmp.clamp x l h = l := by
  rw [clamp_eq]
  exact max_eq_left (le_trans (min_le_right ..) hlh.le)

end

/-- **C41** For integers, the result is the value of `[l, h]` closest to `x`, and the only closest one. -/
theorem C41_clamp_closest {l h : Int} (hlh : l ≤ h) (x z : Int) (h1 : l ≤ z) (h2 : z ≤ h) :
    (x - Cmp.clamp x l h).natAbs ≤ (x - z).natAbs ∧
      ((x - z).natAbs = (x - Cmp.clamp x l h).natAbs → z = Cmp.clamp x l h) := by
  obtain ⟨a, b, c, d, e⟩ := C41_clamp hlh x
  by_cases hx : x < l
  · rw [d hx]; omega
  · by_cases hx2 : h < x
    · rw [e hx2]; omega
    · rw [c (by omega) (by omega)]; omega

example : Cmp.clamp (7 : Int) (-3) 5 = 5 ∧ Cmp.clamp (-7 : Int) (-3) 5 = -3 := by decide
example : Cmp.clamp (7 : Int) 5 (-3) = 5 ∧ Cmp.clamp (-7 : Int) 5 (-3) = 5 := by decide

/-- Numbers and an element not comparable to anything, as NaN. -/
inductive Fl
  | nan
  | num (x : Int)
  deriving DecidableEq

instance : LT Fl := ⟨fun a b => match a, b with | .num a, .num b => a < b | _, _ => False⟩

instance : DecidableLT Fl := fun a b => match a, b with
  | .num a, .num b => inferInstanceAs (Decidable (a < b))
  | .nan, _ => isFalse (fun h => h)
  | .num _, .nan => isFalse (fun h => h)

/-- **C41** (outside the property: the floating point instances.)  With a NaN, `min x y` depends on the order of its arguments
and `clamp` may return the NaN. -/
theorem C41_nan : Cmp.min Fl.nan (.num 1) = .num 1 ∧ Cmp.min (.num 1) Fl.nan = .nan ∧
    Cmp.clamp (.num 1) (.num 0) Fl.nan = .nan := by decide

/-! ### C68 -/

/-- **C68** (partial: `0 < n`, see `C68_swap_zero`.)  Two areas of different objects are exchanged, everything else stays. -/
theorem C68_swap_partial {E : Env} {pa xs sa pb ys sb : Mem} {n : Nat} (hn : 0 < n) (hx : xs.length = n) (hy : ys.length = n)
    (ha : E.allocOk n = true) :
    Core.gswap2 E (pa ++ xs ++ sa) (pb ++ ys ++ sb) pa.length pb.length n = .ok (pa ++ ys ++ sa, pb ++ xs ++ sb) := by
  have h1 : cassert E (n != 0) = .ok () := by
    have : (n != 0) = true := by simp; omega
    rw [this, cassert_true]
  have h2 : writeN (List.replicate n (some 0)) 0 xs = .ok xs := by
    rw [writeN_ok (by simp; omega)]
    simp [hx]
  have h3 : readN xs 0 n = .ok xs := by
    rw [readN_ok (by omega)]
    simp [← hx]
  simp only [Core.gswap2, h1, bind_ok, vtCalloc_ok hn ha, readN_mid pa xs sa rfl hx.symm, readN_mid pb ys sb rfl hy.symm, h2, h3,
    writeN_mid pa xs sa ys rfl (by omega), writeN_mid pb ys sb xs rfl (by omega)]

/-- **C68** Swapping twice restores both objects. -/
theorem C68_swap_twice_partial {E : Env} {pa xs sa pb ys sb : Mem} {n : Nat} (hn : 0 < n) (hx : xs.length = n) (hy : ys.length = n)
    (ha : E.allocOk n = true) :
    (do let r ← Core.gswap2 E (pa ++ xs ++ sa) (pb ++ ys ++ sb) pa.length pb.length n
        Core.gswap2 E r.1 r.2 pa.length pb.length n) = .ok (pa ++ xs ++ sa, pb ++ ys ++ sb) := by
  rw [C68_swap_partial hn hx hy ha, bind_ok]
  exact C68_swap_partial hn hy hx ha

/-- **C68** Two areas of the same object that do not overlap are exchanged, everything else stays. -/
theorem C68_swap_within_partial {E : Env} {a xs b ys c : Mem} {n : Nat} (hn : 0 < n) (hx : xs.length = n) (hy : ys.length = n)
    (ha : E.allocOk n = true) :
    gswap E (a ++ xs ++ b ++ ys ++ c) a.length (a ++ xs ++ b).length n = .ok (a ++ ys ++ b ++ xs ++ c) ∧
    gswap E (a ++ xs ++ b ++ ys ++ c) (a ++ xs ++ b).length a.length n = .ok (a ++ ys ++ b ++ xs ++ c) := by
  have h1 : cassert E (n != 0) = .ok () := by
    have : (n != 0) = true := by simp; omega
    rw [this, cassert_true]
  have ea : a ++ xs ++ b ++ ys ++ c = a ++ xs ++ (b ++ ys ++ c) := by simp
  have r1 : readN (a ++ xs ++ b ++ ys ++ c) a.length n = .ok xs := by
    rw [ea]; exact readN_mid a xs _ rfl hx.symm
  have r2 : readN (a ++ xs ++ b ++ ys ++ c) (a ++ xs ++ b).length n = .ok ys :=
    readN_mid (a ++ xs ++ b) ys c rfl hy.symm
  have w1 : writeN (a ++ xs ++ b ++ ys ++ c) a.length ys = .ok (a ++ ys ++ b ++ ys ++ c) := by
    rw [ea, writeN_mid a xs _ ys rfl (by omega)]; simp
  have w2 : writeN (a ++ ys ++ b ++ ys ++ c) (a ++ xs ++ b).length xs = .ok (a ++ ys ++ b ++ xs ++ c) :=
    writeN_mid (a ++ ys ++ b) ys c xs (by simp; omega) (by omega)
  have w3 : writeN (a ++ xs ++ b ++ ys ++ c) (a ++ xs ++ b).length xs = .ok (a ++ xs ++ b ++ xs ++ c) :=
    writeN_mid (a ++ xs ++ b) ys c xs rfl (by omega)
  have w4 : writeN (a ++ xs ++ b ++ xs ++ c) a.length ys = .ok (a ++ ys ++ b ++ xs ++ c) := by
    rw [show a ++ xs ++ b ++ xs ++ c = a ++ xs ++ (b ++ xs ++ c) by simp, writeN_mid a xs _ ys rfl (by omega)]; simp
  have hne : ¬ a.length = (a ++ xs ++ b).length := by simp only [List.length_append]; omega
  have hov : ¬ (a.length < (a ++ xs ++ b).length + n ∧ (a ++ xs ++ b).length < a.length + n) := by
    simp only [List.length_append]; omega
  constructor
  · simp only [gswap, h1, bind_ok, vtCalloc_ok hn ha, r1, r2, if_neg hne, if_neg hov, w1, w2]
  · have hne' : ¬ (a ++ xs ++ b).length = a.length := fun h => hne h.symm
    have hov' : ¬ ((a ++ xs ++ b).length < a.length + n ∧ a.length < (a ++ xs ++ b).length + n) := fun h => hov ⟨h.2, h.1⟩
    simp only [gswap, h1, bind_ok, vtCalloc_ok hn ha, r1, r2, if_neg hne', if_neg hov', w3, w4]

/-- **C68** (counterexample) Swapping 0 bytes terminates the program in debug builds. -/
theorem C68_swap_zero {E : Env} (hD : E.debug = true) (a b : Mem) (i j : Nat) :
    Core.gswap2 E a b i j 0 = .exit .cAssert := by
  simp [Core.gswap2, cassert_false hD]

/-- **C68** The pointers are exchanged. -/
theorem C68_pswap {α : Type} (a b : α) : Core.pswap a b = (b, a) := rfl

theorem bytesEq_some : ∀ (x y : List UInt8), x.length = y.length →
    bytesEq (x.map some) (y.map some) = .ok (decide (x = y))
  | [], [], _ => by simp [bytesEq]
  | a :: x, b :: y, h => by
    simp only [List.map_cons, bytesEq]
    by_cases hab : a = b
    · subst hab
      rw [if_pos rfl, bytesEq_some x y (by simpa using h)]
      simp
    · rw [if_neg hab]
      simp [hab]

/-- **C68** (partial: `n = 0` gives false, see `C68_memcmp_zero`.)  For `n > 0` initialised bytes, `memcmp` is true exactly if they are equal. -/
theorem C68_memcmp_partial {x y : List UInt8} {n : Nat} (hn : 0 < n) (hx : x.length = n) (hy : y.length = n) (r r' : Mem) :
    ∃ b, Core.memcmp (x.map some ++ r) (y.map some ++ r') n = .ok b ∧ (b = true ↔ x = y) := by
  refine ⟨decide (x = y), ?_, by simp⟩
  have e1 : readN (x.map some ++ r) 0 n = .ok (x.map some) := by
    have := readN_mid [] (x.map some) r (off := 0) (n := n) rfl (by simp [hx])
    simpa using this
  have e2 : readN (y.map some ++ r') 0 n = .ok (y.map some) := by
    have := readN_mid [] (y.map some) r' (off := 0) (n := n) rfl (by simp [hy])
    simpa using this
  simp only [Core.memcmp, if_neg (show ¬ n = 0 by omega), e1, e2, bind_ok]
  exact bytesEq_some x y (by omega)

/-- **C68** (counterexample) Comparing 0 bytes says "different", even for an area with itself. -/
theorem C68_memcmp_zero (m : Mem) : Core.memcmp m m 0 = .ok false := rfl

example : Core.gswap2 exE [some 1, some 2, some 3] [some 7, some 8] 1 0 2 =
    .ok ([some 1, some 7, some 8], [some 2, some 3]) := by decide +kernel

/-! ### C69 -/

/-- **C69** Every status code below the count has a name, different codes have different names, and every other value gives NULL. -/
theorem C69_status_names :
    (∀ e, e < Core.statusCount → ∃ s, Core.statusToStr e = .ok (some s)) ∧
    (∀ e e', e < Core.statusCount → e' < Core.statusCount → Core.statusToStr e = Core.statusToStr e' → e = e') ∧
    (∀ e, Core.statusCount ≤ e → Core.statusToStr e = .ok none) := by
  refine ⟨?_, ?_, ?_⟩
  · intro e he
    have : ∀ e : Fin 11, ∃ s, Core.statusToStr e = .ok (some s) := by
      intro e
      have h : Core.errorStr[e.val]? = some (Core.errorStr[e.val]'(by have := e.isLt; simp [Core.errorStr]; omega)) :=
        List.getElem?_eq_getElem _
      exact ⟨Core.errorStr[e.val]'(by have := e.isLt; simp [Core.errorStr]; omega), by
        rw [Core.statusToStr, if_pos (show e.val < Core.statusCount from e.isLt), h]⟩
    exact this ⟨e, he⟩
  · intro e e' he he'
    have : ∀ e e' : Fin 11, Core.statusToStr e = Core.statusToStr e' → e = e' := by decide +kernel
    intro h
    exact congrArg Fin.val (this ⟨e, he⟩ ⟨e', he'⟩ h)
  · intro e he
    rw [Core.statusToStr, if_neg (by omega)]

/-- What a status is called in the source. -/
def statusName : Core.Status → String
  | .VT_STATUS_ERROR_IS_NULL => "VT_STATUS_ERROR_IS_NULL"
  | .VT_STATUS_ERROR_ALLOCATION => "VT_STATUS_ERROR_ALLOCATION"
  | .VT_STATUS_ERROR_INVALID_ARGUMENTS => "VT_STATUS_ERROR_INVALID_ARGUMENTS"
  | .VT_STATUS_ERROR_OUT_OF_MEMORY => "VT_STATUS_ERROR_OUT_OF_MEMORY"
  | .VT_STATUS_ERROR_OUT_OF_BOUNDS_ACCESS => "VT_STATUS_ERROR_OUT_OF_BOUNDS_ACCESS"
  | .VT_STATUS_ERROR_INCOMPATIBLE_DATATYPE => "VT_STATUS_ERROR_INCOMPATIBLE_DATATYPE"
  | .VT_STATUS_ERROR_CONVERSION => "VT_STATUS_ERROR_CONVERSION"
  | .VT_STATUS_ERROR_ELEMENT_NOT_FOUND => "VT_STATUS_ERROR_ELEMENT_NOT_FOUND"
  | .VT_STATUS_ERROR_IS_VIEW => "VT_STATUS_ERROR_IS_VIEW"
  | .VT_STATUS_OPERATION_FAILURE => "VT_STATUS_OPERATION_FAILURE"
  | .VT_STATUS_OPERATION_SUCCESS => "VT_STATUS_OPERATION_SUCCESS"
  | .VT_STATUS_COUNT => ""

/-- **C69.** The text of a status is what it is called in the source (the last enumerator, the count, is not a status). -/
theorem C69_own_name (s : Core.Status) (h : s ≠ .VT_STATUS_COUNT) : Core.statusToStr s.code = .ok (some (statusName s)) := by
  cases s <;> first | exact absurd rfl h | rfl

example : Core.statusToStr 10 = .ok (some "VT_STATUS_OPERATION_SUCCESS") ∧ Core.statusToStr 11 = .ok none := by decide +kernel

end Vita
