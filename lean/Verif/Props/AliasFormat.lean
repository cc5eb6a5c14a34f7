import Verif.Model.AliasFormat
import Verif.Props.Alias
import Verif.Props.StrFormat
/-!
# Property C118: a string can be formatted into itself
-/

namespace Vita
open Out Spec

/-! ### Specification -/

/-- What a piece stands for in a string with the text `t`. -/
def pieceText (t : Text) : Str.Piece → Text
  | .lit x => x
  | .own off none => t.drop off
  | .own off (some k) => (t.drop off).take k

/-- The whole output for a string with the text `t`. -/
def formatted (t : Text) (ps : List Str.Piece) : Text := ps.flatMap (pieceText t)

/-- The pieces are in the text. -/
def InText (t : Text) (ps : List Str.Piece) : Prop := ∀ off k, .own off k ∈ ps → off ≤ t.length

/-- The terminator of the string is read: `%s` of a piece of it, or a precision that goes beyond the end. -/
def ReadsEnd (t : Text) : Str.Piece → Prop
  | .lit _ => False
  | .own _ none => True
  | .own off (some k) => t.length < off + k

/-! ### Lemmas -/

theorem scanMax_ok {x : Text} {rest : Mem} (h0 : 0 ∉ x) : ∀ k, Str.scanMax (x.map some ++ some 0 :: rest) k =
    .ok (x.take k, if x.length < k then x.length + 1 else k) := by
  induction x with
  | nil =>
    intro k
    cases k with
    | zero => rfl
    | succ k => simp [Str.scanMax]
  | cons c x ih =>
    intro k
    cases k with
    | zero => simp [Str.scanMax]
    | succ k =>
      have hc : c ≠ 0 := fun hc => h0 (by rw [hc]; exact List.mem_cons_self ..)
      simp only [List.map_cons, List.cons_append, Str.scanMax, if_neg hc, ih (fun hx => h0 (List.mem_cons_of_mem _ hx)) k, bind_ok, List.take_succ_cons,
        List.length_cons, Nat.add_lt_add_iff_right]
      split <;> rfl

/-- The area of the block that a piece reads. -/
def readArea (t : Text) : Str.Piece → Nat × Nat
  | .lit _ => (0, 0)
  | .own off none => (off, t.length - off + 1)
  | .own off (some k) => (off, if t.length - off < k then t.length - off + 1 else k)

theorem piece_ok {v : Arr} {t : Text} (h : IsStr v t) {p : Str.Piece} (hp : ∀ off k, p = .own off k → off ≤ t.length) :
    Str.piece v.mem p = .ok (pieceText t p, readArea t p) := by
  cases p with
  | lit x => rfl
  | own off k =>
    have ho := hp off k rfl
    cases k with
    | none =>
      simp only [Str.piece, (own_text h ho).text, bind_ok, pieceText, readArea, List.length_drop]
    | some k =>
      obtain ⟨rest, e, -⟩ := h.split
      have : v.mem.drop off = (t.drop off).map some ++ some 0 :: rest := by
        rw [e, List.drop_append_of_le_length (by simpa using ho), List.map_drop]
      simp only [Str.piece, this, scanMax_ok (own_text h ho).nz k, bind_ok, pieceText, readArea, List.length_drop]

theorem render_ok {v : Arr} {t : Text} (h : IsStr v t) : ∀ {ps : List Str.Piece}, InText t ps →
    Str.render v.mem ps = .ok (formatted t ps, ps.map (readArea t))
  | [], _ => rfl
  | p :: ps, hp => by
    unfold Str.render
    rw [piece_ok h (fun off k e => hp off k (by rw [e]; exact List.mem_cons_self ..)), bind_ok]
    simp only [render_ok h (ps := ps) (fun off k e => hp off k (List.mem_cons_of_mem _ e)), bind_ok]
    rfl

theorem formatted_nz {v : Arr} {t : Text} (h : IsStr v t) {ps : List Str.Piece} (h0 : ∀ x, .lit x ∈ ps → 0 ∉ x) : 0 ∉ formatted t ps := by
  intro hm
  obtain ⟨p, hp, hm⟩ := List.mem_flatMap.1 hm
  cases p with
  | lit x => exact h0 x hp hm
  | own off k =>
    cases k with
    | none => exact h.nz (List.mem_of_mem_drop hm)
    | some k => exact h.nz (List.mem_of_mem_drop (List.mem_of_mem_take hm))

theorem overlaps_end {t : Text} {p : Str.Piece} (hp : ∀ off k, p = .own off k → off ≤ t.length) (n : Nat) :
    Str.overlaps t.length (n + 1) (readArea t p) = true ↔ ReadsEnd t p := by
  unfold Str.overlaps
  rw [decide_eq_true_iff]
  cases p with
  | lit x => simp [readArea, ReadsEnd]
  | own off k =>
    have ho := hp off k rfl
    cases k with
    | none => simp only [readArea, ReadsEnd, iff_true]; omega
    | some k =>
      simp only [readArea, ReadsEnd]
      split <;> omega

/-! ### The claims -/

/-- **C118.** `vt_str_insertf` may be given any parts of the string's own text: the result is that for a copy of them. -/
theorem C118_insertf {E : Env} (hD : E.debug = true) {v : Arr} {t : Text} (h : IsStr v t) {ps : List Str.Piece} (hp : InText t ps)
    (h0 : ∀ x, .lit x ∈ ps → 0 ∉ x) (hl : (formatted t ps).length + 1 < 2 ^ 31) {i : Nat} (hi : i < t.length) :
    OkOr E (4 * t.length + 2 * (formatted t ps).length + 56) (Str.insertfOwn E v i ps)
      fun v' => IsStr v' (t.take i ++ formatted t ps ++ t.drop i) := by
  unfold Str.insertfOwn
  rw [render_ok h hp, bind_ok]
  exact C36_insertf_partial hD h (formatted_nz h h0) hl hi

/-- **C118** (partial: there is room for the output, and of the string's own text only parts that end before its end are used.)  `vt_str_appendf` then
does the same for the end of the string. -/
theorem C118_appendf_partial {E : Env} {v : Arr} {t : Text} (h : IsStr v t) {ps : List Str.Piece} (hp : InText t ps)
    (h0 : ∀ x, .lit x ∈ ps → 0 ∉ x) (hl : (formatted t ps).length < 2 ^ 31) (hc : t.length + (formatted t ps).length ≤ v.cap)
    (he : ∀ p ∈ ps, ¬ ReadsEnd t p) :
    ∃ v', Str.appendfOwn E v ps = .ok v' ∧ IsStr v' (t ++ formatted t ps) ∧ v'.cap = v.cap := by
  obtain ⟨v', e, s, c⟩ := C36_appendf (E := E) h (formatted_nz h h0) hl (Or.inl hc)
  refine ⟨v', ?_, s, by rw [c]; omega⟩
  have hsp : ¬ hasSpace v < (formatted t ps).length := by rw [hasSpace_str h]; omega
  have hov : (ps.map (readArea t)).any (Str.overlaps v.len ((formatted t ps).length + 1)) = false := by
    rw [List.any_eq_false]
    intro r hr
    obtain ⟨p, hpp, rfl⟩ := List.mem_map.1 hr
    rw [h.len, overlaps_end (fun off k e => hp off k (e ▸ hpp))]
    exact he p hpp
  unfold Str.appendfOwn
  rw [render_ok h hp, bind_ok]
  simp only [hsp, false_and, if_false, hov, Bool.false_eq_true]
  exact e

/-- **C118** (the defect) A conversion that reads the string up to its end, as `%s` does, is undefined in `vt_str_appendf`: the terminator is read and
overwritten by the same call, or the block is reallocated before. -/
theorem C118_appendf_reads_end {E : Env} {v : Arr} {t : Text} (h : IsStr v t) {ps : List Str.Piece} (hp : InText t ps)
    (hl : (formatted t ps).length < 2 ^ 31) {p : Str.Piece} (hpp : p ∈ ps) (he : ReadsEnd t p)
    (ha : t.length + (formatted t ps).length ≤ v.cap ∨ E.allocOk (t.length + (formatted t ps).length + 1) = true) :
    Str.appendfOwn E v ps = .ub := by
  have hown : ps.any Str.Piece.isOwn = true := List.any_eq_true.2 ⟨p, hpp, by cases p with | lit x => exact he.elim | own o k => rfl⟩
  unfold Str.appendfOwn
  rw [render_ok h hp, bind_ok]
  by_cases hsp : hasSpace v < (formatted t ps).length
  · obtain ⟨g, hg, -⟩ := str_grow_ok (E := E) h (n := (formatted t ps).length) (by have := h.lim; have := h.le; omega) ha
    simp only [hsp, hown, and_self, if_true, hg, bind_ok]
  · have hov : (ps.map (readArea t)).any (Str.overlaps v.len ((formatted t ps).length + 1)) = true :=
      List.any_eq_true.2 ⟨_, List.mem_map.2 ⟨p, hpp, rfl⟩, by rw [h.len]; exact (overlaps_end (fun off k e => hp off k (e ▸ hpp)) _).2 he⟩
    simp only [hsp, false_and, if_false, hov, if_true]

/-- **C118** (the defect) Without room for the output, any use of the string's own text in `vt_str_appendf` is undefined. -/
theorem C118_appendf_no_room {E : Env} {v : Arr} {t : Text} (h : IsStr v t) {ps : List Str.Piece} (hp : InText t ps)
    (hl : (formatted t ps).length < 2 ^ 31) (hc : v.cap < t.length + (formatted t ps).length) {off : Nat} {k : Option Nat} (ho : .own off k ∈ ps)
    (ha : E.allocOk (t.length + (formatted t ps).length + 1) = true) : Str.appendfOwn E v ps = .ub := by
  have hown : ps.any Str.Piece.isOwn = true := List.any_eq_true.2 ⟨_, ho, rfl⟩
  have hsp : hasSpace v < (formatted t ps).length := by rw [hasSpace_str h]; have := h.le; omega
  obtain ⟨g, hg, -⟩ := str_grow_ok (E := E) h (n := (formatted t ps).length) (by have := h.lim; have := h.le; omega) (Or.inr ha)
  unfold Str.appendfOwn
  rw [render_ok h hp, bind_ok]
  simp only [hsp, hown, and_self, if_true, hg, bind_ok]

/-- Example: `"abc"`, the first two characters in brackets, inserted at 1. -/
example : (Str.insertfOwn exE (strObj [97, 98, 99] 0) 1 [.lit [91], .own 0 (some 2), .lit [93], .own 2 none]).mapOk Str.z =
    .ok (.ok [97, 91, 97, 98, 93, 99, 98, 99]) := by decide +kernel

/-- Example: the same parts without the last, appended with room for them. -/
example : (Str.appendfOwn exE (strObj [97, 98, 99] 9) [.lit [91], .own 0 (some 2), .lit [93]]).mapOk Str.z =
    .ok (.ok [97, 98, 99, 91, 97, 98, 93]) := by decide +kernel

/-- Example: `vt_str_appendf(s, "%s", vt_str_z(s))`, with room. -/
example : Str.appendfOwn exE (strObj [97, 98, 99] 9) [.own 0 none] = .ub := by decide +kernel

example : InText [97, 98, 99] [.lit [91], .own 0 (some 2), .lit [93]] ∧ ∀ p ∈ [Str.Piece.lit [91], .own 0 (some 2), .lit [93]], ¬ ReadsEnd [97, 98, 99] p := by
  refine ⟨?_, ?_⟩
  · intro off k hm; simp at hm; simp [hm.1]
  · intro p hm; simp at hm; rcases hm with rfl | rfl | rfl <;> simp [ReadsEnd]

/-! ### C80 for insertion at a found text -/

/-- **C80** (partial: there is room, and the place is not in front of the inserted text.)  `vt_str_insert_before` with text of the string itself. -/
theorem C80_insert_before_own_partial {E : Env} {v : Arr} {t ss : Text} (h : IsStr v t) {sub : Mem} (hs : CStr sub ss) {i : Nat} (hi : IsFirst t ss i)
    (h0 : ss ≠ []) {off : Nat} (ho : off ≤ i) (hc : t.length + (t.length - off) ≤ v.cap) :
    ∃ v', Str.insertBeforeOwn E v sub off = .ok v' ∧ IsStr v' (t.take i ++ t.drop off ++ t.drop i) ∧ v'.cap = v.cap := by
  have := hi.1.le
  have hp : 0 < ss.length := List.length_pos_iff.2 h0
  unfold Str.insertBeforeOwn
  simp only [indexFind_some h hs hi, bind_ok, Int.toNat_natCast]
  rw [if_neg (by omega)]
  exact C80_insert_own_partial E v t h off i ho (by omega) hc

/-- **C80** (partial, as before.)  `vt_str_insert_after` with text of the string itself. -/
theorem C80_insert_after_own_partial {E : Env} {v : Arr} {t ss : Text} (h : IsStr v t) {sub : Mem} (hs : CStr sub ss) {i : Nat} (hi : IsFirst t ss i)
    (he : i + ss.length < t.length) {off : Nat} (ho : off ≤ i + ss.length) (hc : t.length + (t.length - off) ≤ v.cap) :
    ∃ v', Str.insertAfterOwn E v sub off = .ok v' ∧ IsStr v' (t.take (i + ss.length) ++ t.drop off ++ t.drop (i + ss.length)) ∧ v'.cap = v.cap := by
  have w : wadd i ss.length = i + ss.length := wadd_eq (by have := h.lim; have := h.le; omega)
  unfold Str.insertAfterOwn
  simp only [indexFind_some h hs hi, bind_ok, Int.toNat_natCast, strlen_ok hs.text, w]
  rw [if_neg (by omega)]
  exact C80_insert_own_partial E v t h off _ ho he hc

/-- **C80** (the defect) Without room, both are undefined. -/
theorem C80_insert_found_own_ub {E : Env} {v : Arr} {t ss : Text} (h : IsStr v t) {sub : Mem} (hs : CStr sub ss) {i : Nat} (hi : IsFirst t ss i)
    (he : i + ss.length < t.length) {off : Nat} (ho : off < t.length) (hc : v.cap < t.length + (t.length - off))
    (ha : E.allocOk (t.length + (t.length - off) + 1) = true) :
    Str.insertBeforeOwn E v sub off = .ub ∧ Str.insertAfterOwn E v sub off = .ub := by
  have w : wadd i ss.length = i + ss.length := wadd_eq (by have := h.lim; have := h.le; omega)
  unfold Str.insertBeforeOwn Str.insertAfterOwn
  simp only [indexFind_some h hs hi, bind_ok, Int.toNat_natCast, strlen_ok hs.text, w]
  rw [if_neg (by omega)]
  exact ⟨C80_insert_own_ub E v t h off _ ho (by omega) hc ha, C80_insert_own_ub E v t h off _ ho he hc ha⟩

/-- Example: in `"a,b"` the text behind the comma is put behind it once more. -/
example : (Str.insertAfterOwn exE (strObj [97, 44, 98] 9) (zstr [44]) 2).mapOk Str.z = .ok (.ok [97, 44, 98, 98]) := by decide +kernel

end Vita
