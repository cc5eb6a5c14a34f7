import Verif.Lemmas.StrMore
import Verif.Props.Vec
/-!
# Properties C15-C25, C35, C36: editing strings

`IsStr v t` (Lemmas/Str.lean) says that the string object `v` is well formed and holds the text `t`: the
NUL-terminated text in its buffer is `t`, the recorded length is the length of `t`, the buffer has
capacity + 1 bytes, the object is not a view.  `CStr z t` says that the C string at `z` is `t`.
`OkOr E B o P`: `o` returns a value satisfying `P`, unless the program was terminated because of a refused memory request; then
`E.Refuses B`, that is, a request for at most `B` bytes is refused.  So a call whose `B` is small never fails while the memory lasts.
-/

namespace Vita
open Out Spec

seal wadd wsub wmul

/-- For examples: a C string in memory. -/
def zstr (t : Text) : Mem := t.map some ++ [some 0]

/-- For examples: a string object holding `t` with `extra` spare bytes. -/
def strObj (t : Text) (extra : Nat) : Arr :=
  ⟨t.length, t.length + extra, 1, 0, false, t.map some ++ some 0 :: List.replicate extra none⟩

theorem cstr_zstr {t : Text} (h : 0 ∉ t) (hl : t.length < 2 ^ 56) : CStr (zstr t) t :=
  ⟨scanZ_eq_ok.2 ⟨⟨[], rfl⟩, h⟩, hl⟩

theorem isStr_strObj {t : Text} {extra : Nat} (h : 0 ∉ t) (hl : t.length + extra + 1 < 2 ^ 56) :
    IsStr (strObj t extra) t :=
  IsStr.mk' (rest := List.replicate extra none) rfl rfl rfl h rfl (by simp [strObj]) hl

/-! ### C15 -/

/-- **C15** What a user sees of a well formed string. -/
theorem C15_wellformed_observables {v : Arr} {t : Text} (h : IsStr v t) :
    Str.z v = .ok t ∧ Str.length v = t.length ∧ Str.length v ≤ v.cap ∧ v.mem.length = v.cap + 1 :=
  ⟨h.text, h.len, by rw [Str.length, h.len]; exact h.le, h.size⟩

/-- **C15** A string created from a non-empty text is well formed and holds it. -/
theorem C15_create {E : Env} {z : Mem} {t : Text} (hz : CStr z t) (h0 : t ≠ []) :
    OkOr E (t.length + 56) (Str.create E z) fun v => IsStr v t ∧ v.cap = t.length :=
  (create_okOr hz h0).mono fun _ h => ⟨h.1, h.2.1⟩

/-- **C15** (partial: only calls whose unchecked obligations are met, see `Legal`; the code does not check
them, `C15_insert_n_beyond_end` and `C15_reserve_overflow` show what happens otherwise.)
Every history of editing calls on a well formed string either returns a well formed string
whose text and capacity are those of the specification `StrRun`, or terminates the program the way the
specification says.  In particular it never accesses memory outside the buffer (`ub`) and every
loop ends (`fuel`) within one iteration more than there are characters. -/
theorem C15_string_wellformed_partial {E : Env} (hD : E.debug = true) {k : Nat} (hk : 1 ≤ k) (ops : List StrOp) :
    ∀ {v : Arr} {t : Text}, IsStr v t → LegalRun E ⟨t, v.cap⟩ ops →
    (∃ v' t', runStr E k v ops = .ok v' ∧ IsStr v' t' ∧ StrRun E ⟨t, v.cap⟩ ops (.ok ⟨t', v'.cap⟩)) ∨
    (∃ w, runStr E k v ops = .exit w ∧ StrRun E ⟨t, v.cap⟩ ops (.exit w)) := by
  induction ops with
  | nil => intro v t h _; exact Or.inl ⟨v, t, rfl, h, .nil _⟩
  | cons op ops ih =>
    intro v t h hL
    cases hL with
    | cons hl hr =>
      rcases sim_step hD hk h op hl with ⟨v1, t1, e, s, st⟩ | ⟨w, e, st⟩
      · rcases ih s (hr _ st) with ⟨v', t', e', s', r⟩ | ⟨w, e', r⟩
        · exact Or.inl ⟨v', t', by rw [runStr, e, bind_ok, e'], s', .cons st r⟩
        · exact Or.inr ⟨w, by rw [runStr, e, bind_ok, e'], .cons st r⟩
      · exact Or.inr ⟨w, by rw [runStr, e, bind_exit], .stop st⟩

example : IsStr (strObj [97, 98, 99] 1) [97, 98, 99] := isStr_strObj (by decide) (by decide)

/-- A legal history: append "dd", replace "b" by "xyz", cut, clear. -/
example : LegalRun exE ⟨[97, 98, 99], 4⟩
    [.append (zstr [100, 100]), .replace (zstr [98]) (zstr [120, 121, 122]), .remove 2 1, .clear] := by
  refine .cons ⟨by decide +kernel, by decide +kernel⟩ fun s' _ => ?_
  refine .cons ⟨⟨by decide +kernel, by decide +kernel⟩, by decide +kernel, by decide +kernel⟩ fun s' _ => ?_
  exact .cons trivial fun s' _ => .cons trivial fun s' _ => .nil _

example : (runStr exE 1 (strObj [97, 98, 99] 1)
    [.append (zstr [100, 100]), .replace (zstr [98]) (zstr [120, 121, 122]), .remove 2 1]).mapOk
      (fun v => (Str.z v, v.cap)) = .ok (.ok [97, 120, 122, 99, 100, 100], 7) := by decide +kernel

/-- **C15** (refutation) `insert_n` does not check its position: inserting anywhere beyond the end of any
string leaves the buffer (given the memory for the longer text). -/
theorem C15_insert_n_beyond_end {E : Env} {v : Arr} {t : Text} (h : IsStr v t) (z : Mem) {i n : Nat} (hi : t.length < i)
    (hi' : i < 2 ^ 64) (h1 : 0 < n) (hn : n < 2 ^ 63)
    (ha : t.length + n ≤ v.cap ∨ E.allocOk (t.length + n + 1) = true) : Str.insertN E v z i n = .ub := by
  obtain ⟨g, hg, gs, gc, -⟩ := str_grow_ok (E := E) h hn ha
  have hl := gs.lim
  have hle := gs.le
  have hsz := gs.size
  have e1 : wmul i 1 = i := wmul_one hi'
  have e2 : wsub t.length i = 2 ^ 64 - (i - t.length) := by
    unfold wsub; omega
  have e3 : wmul (2 ^ 64 - (i - t.length)) 1 = 2 ^ 64 - (i - t.length) := wmul_one (by omega)
  have hr : readN g.mem i (2 ^ 64 - (i - t.length)) = .ub := readN_ub (by omega)
  rw [Str.insertN, decide_eq_true h1, dassert_true, bind_ok, hg, bind_ok, gs.es, gs.len, e1, e2, e3, vtMemmove,
    if_neg (by omega), memmove, hr, bind_ub, bind_ub]

/-- Example: one character one place beyond the end of "a". -/
example : IsStr (strObj [97] 0) [97] ∧ Str.insertN exE (strObj [97] 0) (zstr [98]) 2 1 = .ub :=
  ⟨isStr_strObj (by decide) (by decide), by decide +kernel⟩

/-- **C15** (refutation) `reserve` does not check for overflow: if the new capacity is not representable and
wraps to a number below the length of the text, the capacity is smaller than the length and the terminator
is written inside the text. -/
theorem C15_reserve_overflow {E : Env} {v : Arr} {t : Text} (h : IsStr v t) {n : Nat} (hn : n < 2 ^ 64)
    (ho : 2 ^ 64 ≤ v.cap + n) (hs : v.cap + n - 2 ^ 64 < t.length) (ha : E.allocOk (v.cap + n - 2 ^ 64 + 1) = true) :
    ∃ v', Str.reserve E v n = .ok v' ∧ Str.z v' = .ok (t.take (v.cap + n - 2 ^ 64)) ∧ Str.length v' = t.length ∧
      v'.cap = v.cap + n - 2 ^ 64 := by
  have hl := h.lim
  obtain ⟨rest, hm, hr⟩ := h.split
  generalize hc : v.cap + n - 2 ^ 64 = c at *
  have e1 : wadd v.cap n = c := by unfold wadd; omega
  have e2 : wadd c 1 = c + 1 := wadd_eq (by omega)
  have e3 : wmul (c + 1) 1 = c + 1 := wmul_one (by omega)
  have hT : v.mem.take (c + 1) ++ List.replicate (c + 1 - v.mem.length) none = (t.take c).map some ++ [some t[c]] := by
    rw [show c + 1 - v.mem.length = 0 by rw [h.size]; omega, List.replicate_zero, List.append_nil, hm,
      List.take_append_of_le_length (by simp; omega), ← List.map_take, List.take_add_one, List.getElem?_eq_getElem hs,
      Option.toList_some, List.map_append, List.map_singleton]
  have hP : putc ((t.take c).map some ++ [some t[c]]) c 0 = .ok ((t.take c).map some ++ [some 0]) := by
    have := putc_mid ((t.take c).map some) [] (some t[c]) 0 (i := c) (by simp; omega)
    simpa using this
  refine ⟨{ v with mem := (t.take c).map some ++ [some 0], cap := c }, ?_, ?_, h.len, rfl⟩
  · simp only [Str.reserve, e1, e2, e3, h.es, h.view, vtRealloc_ok (by omega : 0 < c + 1) ha, hT, bind_ok, hP]
    simp [show 0 < n by omega]
  · exact scanZ_append (rest := []) (fun h0 => h.nz (List.mem_of_mem_take h0))

/-- Example: "ab" and `n = 2^64 - 1`. -/
example : (Str.reserve exE (strObj [97, 98] 0) (2 ^ 64 - 1)).mapOk (fun v => (Str.z v, Str.length v, v.cap)) =
      .ok (.ok [97], 2, 1) := by decide +kernel

/-! ### C16 -/

/-- **C16** Appending. -/
theorem C16_append {E : Env} {v : Arr} {t zs : Text} (h : IsStr v t) {z : Mem} (hz : CStr z zs) (h0 : zs ≠ [])
    (ha : t.length + zs.length ≤ v.cap ∨ E.allocOk (t.length + zs.length + 1) = true) :
    ∃ v', Str.append E v z = .ok v' ∧ IsStr v' (t ++ zs) ∧ v'.cap = max v.cap (t.length + zs.length) := by
  have := hz.lim
  rw [append_eq hz]
  obtain ⟨v', e, s, c, -⟩ := appendN_ok (E := E) h hz.nz hz.begins (by omega)
    (Or.inl (List.length_pos_iff.2 h0)) ha
  exact ⟨v', e, s, c⟩

/-- **C16** Appending the first `n` characters of a text. -/
theorem C16_append_n {E : Env} {v : Arr} {t zs : Text} (h : IsStr v t) {z : Mem} (hz : CStr z zs) {n : Nat}
    (h0 : 0 < n) (hn : n ≤ zs.length)
    (ha : t.length + n ≤ v.cap ∨ E.allocOk (t.length + n + 1) = true) :
    ∃ v', Str.appendN E v z n = .ok v' ∧ IsStr v' (t ++ zs.take n) ∧ v'.cap = max v.cap (t.length + n) := by
  have := hz.lim
  have hl : (zs.take n).length = n := by simp; omega
  rw [← hl] at ha
  obtain ⟨v', e, s, c, -⟩ := appendN_ok (E := E) h (fun h' => hz.nz (List.mem_of_mem_take h'))
    (hz.begins.take n) (by omega) (Or.inl (by omega)) ha
  rw [hl] at e c
  exact ⟨v', e, s, c⟩

/-- **C16** Inserting. -/
theorem C16_insert {E : Env} {v : Arr} {t zs : Text} (h : IsStr v t) {z : Mem} (hz : CStr z zs) {i : Nat}
    (hi : i < t.length)
    (ha : t.length + zs.length ≤ v.cap ∨ E.allocOk (t.length + zs.length + 1) = true) :
    ∃ v', Str.insert E v z i = .ok v' ∧ IsStr v' (t.take i ++ zs ++ t.drop i) ∧
      v'.cap = max v.cap (t.length + zs.length) := by
  have := hz.lim
  obtain ⟨v', e, s, c, -⟩ := insert_ok (E := E) h hz.text (by omega) (by omega) (Or.inl hi) ha
  exact ⟨v', e, s, c⟩

/-- **C16** Inserting the first `n` characters of a text, also at the very end. -/
theorem C16_insert_n {E : Env} {v : Arr} {t zs : Text} (h : IsStr v t) {z : Mem} (hz : CStr z zs) {i n : Nat}
    (h0 : 0 < n) (hn : n ≤ zs.length) (hi : i ≤ t.length)
    (ha : t.length + n ≤ v.cap ∨ E.allocOk (t.length + n + 1) = true) :
    ∃ v', Str.insertN E v z i n = .ok v' ∧ IsStr v' (t.take i ++ zs.take n ++ t.drop i) ∧
      v'.cap = max v.cap (t.length + n) := by
  have := hz.lim
  have hl : (zs.take n).length = n := by simp; omega
  rw [← hl] at ha
  obtain ⟨v', e, s, c, -⟩ := insertN_ok (E := E) h (fun h' => hz.nz (List.mem_of_mem_take h'))
    (hz.begins.take n) (by omega) (Or.inl (by omega)) hi ha
  rw [hl] at e c
  exact ⟨v', e, s, c⟩

/-- **C16** Removing `n` characters (or all there are) from position `i`. -/
theorem C16_remove {E : Env} {v : Arr} {t : Text} (h : IsStr v t) {i n : Nat} (h0 : 0 < n) (hi : i < t.length) :
    ∃ v', Str.remove E v i n = .ok v' ∧ IsStr v' (t.take i ++ t.drop (i + n)) ∧ v'.cap = v.cap := by
  obtain ⟨v', e, s, c, -⟩ := remove_ok (E := E) h h0 hi
  exact ⟨v', e, s, c⟩

/-- **C16** Overwriting the tail: the text from `i` on becomes `z`; `z` must fit into the old tail. -/
theorem C16_set_at {E : Env} (hD : E.debug = true) {v : Arr} {t zs : Text} (h : IsStr v t) {z : Mem} (hz : CStr z zs) {i : Nat}
    (h0 : zs ≠ []) (hi : i + zs.length ≤ t.length) :
    ∃ v', Str.setAt E v z i = .ok v' ∧ IsStr v' (t.take i ++ zs) ∧ v'.cap = v.cap := by
  have hp : 0 < zs.length := List.length_pos_iff.2 h0
  have hz' : textAt z = zs := textAt_of hz.text
  have hst := sim_step hD (Nat.le_refl 1) h (.setAt z i) (show IsCText z from ⟨by rw [hz']; exact hz.text, by rw [hz']; exact hz.lim⟩)
  have a1 : ¬ t.length ≤ i := by omega
  have a2 : ¬ t.length - i < zs.length := by omega
  rcases hst with ⟨v', t', e, s, st⟩ | ⟨w, e, st⟩
  · simp only [StrStep, hz', a1, a2, h0, if_false, ok.injEq, StrState.mk.injEq] at st
    exact ⟨v', e, st.1 ▸ s, st.2⟩
  · simp [StrStep, hz', a1, a2, h0] at st

/-- **C16** Setting the first `n` characters; the length shrinks to `n`. -/
theorem C16_set_n {E : Env} {v : Arr} {t zs : Text} (h : IsStr v t) {z : Mem} (hz : CStr z zs) {n : Nat}
    (h0 : 0 < n) (hn : n ≤ zs.length) (ht : n ≤ t.length) :
    ∃ v', Str.setN E v z n = .ok v' ∧ IsStr v' (zs.take n) ∧ v'.cap = v.cap := by
  have hl : (zs.take n).length = n := by simp; omega
  obtain ⟨v', e, s, c, -⟩ := setN_ok (E := E) h (fun h' => hz.nz (List.mem_of_mem_take h'))
    (hz.begins.take n) (Or.inl (by omega)) (by omega)
  rw [hl] at e
  exact ⟨v', e, s, c⟩

/-- **C16** Clearing. -/
theorem C16_clear {v : Arr} {t : Text} (h : IsStr v t) :
    ∃ v', Str.clear v = .ok v' ∧ IsStr v' [] ∧ v'.cap = v.cap := by
  obtain ⟨v', e, s, c, -⟩ := clear_ok h
  exact ⟨v', e, s, c⟩

/-- **C16** Reserving room does not change the text. -/
theorem C16_reserve {E : Env} {v : Arr} {t : Text} (h : IsStr v t) {n : Nat} (h0 : 0 < n) (hn : n < 2 ^ 63)
    (ha : E.allocOk (v.cap + n + 1) = true) :
    ∃ v', Str.reserve E v n = .ok v' ∧ IsStr v' t ∧ v'.cap = v.cap + n := by
  obtain ⟨v', e, s, c, -⟩ := str_reserve_ok (E := E) h h0 hn ha
  exact ⟨v', e, s, c⟩

example : (Str.insert exE (strObj [97, 98] 0) (zstr [99]) 1).mapOk Str.z = .ok (.ok [97, 99, 98]) := by decide +kernel
example : (Str.setAt exE (strObj [97, 98, 99] 0) (zstr [100]) 1).mapOk Str.z = .ok (.ok [97, 100]) := by decide +kernel

/-! ### C17 -/

/-- **C17** (partial: release builds only; see `C17_debug_rejects_empty` for debug builds.)
In release builds the empty text is an ordinary value: it can be created, duplicated and appended. -/
theorem C17_empty_string_partial {E : Env} (hR : E.debug = false) {z : Mem} (hz : CStr z [])
    (ha : E.allocOk arrStructSize = true) (hb : E.allocOk 1 = true) :
    (∃ v, Str.create E z = .ok v ∧ IsStr v []) ∧
    (∀ s, IsStr s [] → ∃ v, Str.dup E s = .ok v ∧ IsStr v []) ∧
    (∀ s t, IsStr s t → ∃ v, Str.append E s z = .ok v ∧ IsStr v t) := by
  have hc : ∀ z : Mem, CStr z [] → ∃ v, Str.create E z = .ok v ∧ IsStr v [] := by
    intro z hz
    obtain ⟨v, e, s, -, -⟩ := createLen_ok (E := E) (n := 0) (Or.inr hR) (by omega) ha hb
    obtain ⟨v', e', s', -, -⟩ := setN_ok (E := E) (ys := []) s hz.nz hz.begins (Or.inr hR) (by simp)
    exact ⟨v', by simp only [Str.create, strlen_ok hz.text, bind_ok, List.length_nil] at *; rw [e, bind_ok, e'], s'⟩
  refine ⟨hc z hz, fun s hs => hc s.mem hs.cstr, fun s t hs => ?_⟩
  rw [append_eq hz]
  have := hs.le
  obtain ⟨v', e', s', -, -⟩ := appendN_ok (E := E) (ys := []) hs hz.nz hz.begins (by simp) (Or.inr hR) (Or.inl (by simpa using this))
  exact ⟨v', e', by simpa using s'⟩

/-- **C17** (counterexample) Debug builds terminate the program when the empty text is created, duplicated,
appended, or used to overwrite a tail, whatever the string. -/
theorem C17_debug_rejects_empty {E : Env} (hD : E.debug = true) {z : Mem} (hz : CStr z []) :
    Str.create E z = .exit .dbgAssert ∧
    (∀ s, IsStr s [] → Str.dup E s = .exit .dbgAssert) ∧
    (∀ s t, IsStr s t → Str.append E s z = .exit .dbgAssert) ∧
    (∀ s t i, IsStr s t → i < t.length → Str.setAt E s z i = .exit .dbgAssert) := by
  have hc : ∀ z : Mem, CStr z [] → Str.create E z = .exit .dbgAssert := by
    intro z hz
    simp [Str.create, strlen_ok hz.text, Str.createLen, dassert_false hD]
  refine ⟨hc z hz, fun s hs => hc s.mem hs.cstr, fun s t hs => ?_, fun s t i hs hi => ?_⟩
  · rw [append_eq hz]
    simp [Str.appendN, dassert_false hD]
  · have hz' : textAt z = [] := textAt_of hz.text
    have a1 : ¬ t.length ≤ i := by omega
    rcases sim_step hD (Nat.le_refl 1) hs (.setAt z i) (show IsCText z from ⟨by rw [hz']; exact hz.text, by simp [hz']⟩) with
      ⟨v', t', e, s, st⟩ | ⟨w, e, st⟩
    · simp [StrStep, hz', a1] at st
    · simp only [StrStep, hz', a1, if_false, List.length_nil, Nat.not_lt_zero, if_true, exit.injEq] at st
      rw [st] at e; exact e

example : CStr (zstr []) [] := cstr_zstr (by simp) (by simp)

/-! ### C18 -/

theorem indexFind_some {v : Arr} {t ss : Text} (h : IsStr v t) {sub : Mem} (hs : CStr sub ss) {i : Nat} (hi : IsFirst t ss i) :
    Str.indexFind v sub = .ok (i : Int) := by
  have := hi.1.le
  simp only [Str.indexFind, find_ok h hs (by omega), findSub_some.2 hi, bind_ok]

theorem indexFind_none {v : Arr} {t ss : Text} (h : IsStr v t) {sub : Mem} (hs : CStr sub ss) (hl : ss.length ≤ t.length)
    (hn : ¬ Occurs t ss) : Str.indexFind v sub = .ok (-1) := by
  simp only [Str.indexFind, find_ok h hs hl, findSub_none.2 hn, bind_ok]

/-- **C18** If `sub` occurs, `insert_before` inserts `z` immediately before its first occurrence. -/
theorem C18_insert_before {E : Env} {v : Arr} {t ss zs : Text} (h : IsStr v t) {sub z : Mem} (hs : CStr sub ss)
    (hz : CStr z zs) (h0 : ss ≠ []) {i : Nat} (hi : IsFirst t ss i) :
    OkOr E (t.length + zs.length + 1) (Str.insertBefore E v sub z) fun v' => IsStr v' (t.take i ++ zs ++ t.drop i) := by
  have := hi.1.le
  have hp : 0 < ss.length := List.length_pos_iff.2 h0
  have e : Str.insertBefore E v sub z = Str.insert E v z i := by
    simp only [Str.insertBefore, indexFind_some h hs hi, bind_ok, Int.toNat_natCast]
    rw [if_neg (by omega)]
  rw [e]
  exact (insert_okOr h hz (by omega)).mono fun _ h => h.1

/-- **C18** (partial: an occurrence at the very end is excluded in debug builds, see
`C18_insert_after_end_exits`.)  If `sub` occurs, `insert_after` inserts `z` immediately after its
first occurrence. -/
theorem C18_insert_after_partial {E : Env} {v : Arr} {t ss zs : Text} (h : IsStr v t) {sub z : Mem} (hs : CStr sub ss)
    (hz : CStr z zs) {i : Nat} (hi : IsFirst t ss i) (he : i + ss.length < t.length ∨ E.debug = false) :
    OkOr E (t.length + zs.length + 1) (Str.insertAfter E v sub z) fun v' =>
      IsStr v' (t.take (i + ss.length) ++ zs ++ t.drop (i + ss.length)) := by
  have hle := hi.1.le
  have hl := h.lim
  have hc := h.le
  have hzl := hz.lim
  have w : wadd i ss.length = i + ss.length := wadd_eq (by omega)
  have e : Str.insertAfter E v sub z = Str.insert E v z (i + ss.length) := by
    simp only [Str.insertAfter, indexFind_some h hs hi, bind_ok, Int.toNat_natCast, strlen_ok hs.text, w]
    rw [if_neg (by omega)]
  rw [e]
  by_cases ha : t.length + zs.length ≤ v.cap ∨ E.allocOk (t.length + zs.length + 1) = true
  · obtain ⟨v', e', s', -⟩ := insert_ok (E := E) h hz.text (by omega) hle he ha
    exact Or.inl ⟨v', e', s'⟩
  · simp only [not_or, Bool.not_eq_true] at ha
    right
    refine ⟨?_, _, Nat.le_refl _, ha.2⟩
    rcases he with he | he
    · exact insert_fail h hz.text (by omega) he (by omega) ha.2
    · have hd : ∀ b, dassert E b = .ok () := dassert_release he
      simp only [Str.insert, hd, bind_ok, strlen_ok hz.text, str_grow_fail h (by omega : zs.length < 2 ^ 63) (by omega) ha.2, bind_exit]

/-- **C18** If `sub` does not occur (and is not longer than the text), nothing changes.  The functions
return nothing, so the failure status that the property asks for does not exist. -/
theorem C18_not_found {E : Env} {v : Arr} {t ss : Text} (h : IsStr v t) {sub z : Mem} (hs : CStr sub ss)
    (hl : ss.length ≤ t.length) (hn : ¬ Occurs t ss) :
    Str.insertBefore E v sub z = .ok v ∧ Str.insertAfter E v sub z = .ok v := by
  constructor
  · simp [Str.insertBefore, indexFind_none h hs hl hn]
  · simp [Str.insertAfter, indexFind_none h hs hl hn]

/-- **C18** (counterexample) If the first occurrence of `sub` is at the very end, `insert_after` terminates
the program in debug builds, for every such text. -/
theorem C18_insert_after_end_exits {E : Env} (hD : E.debug = true) {v : Arr} {t ss zs : Text} (h : IsStr v t)
    {sub z : Mem} (hs : CStr sub ss) (hz : CStr z zs) {i : Nat} (hi : IsFirst t ss i) (he : i + ss.length = t.length) :
    Str.insertAfter E v sub z = .exit .dbgAssert := by
  have hl := h.lim
  have hc := h.le
  have w : wadd i ss.length = i + ss.length := wadd_eq (by omega)
  simp only [Str.insertAfter, indexFind_some h hs hi, bind_ok, Int.toNat_natCast, strlen_ok hs.text, w]
  rw [if_neg (by omega)]
  simp [Str.insert, h.len, he, dassert_false hD]

/-- **C18** (counterexample) If `sub` is longer than the text, both functions terminate the program. -/
theorem C18_longer_sub_exits {E : Env} {v : Arr} {t ss : Text} (h : IsStr v t) {sub z : Mem} (hs : CStr sub ss)
    (hl : t.length < ss.length) :
    Str.insertBefore E v sub z = .exit .enforce ∧ Str.insertAfter E v sub z = .exit .enforce := by
  simp [Str.insertBefore, Str.insertAfter, Str.indexFind, find_long h hs hl]

example : (Str.insertAfter exE (strObj [97, 98, 99] 0) (zstr [97, 98]) (zstr [100])).mapOk Str.z =
    .ok (.ok [97, 98, 100, 99]) := by decide +kernel
example : IsFirst [97, 98, 99] [98, 99] 1 := findSub_some.1 (by decide +kernel)

/-! ### C19-C21 -/

/-- **C19** `remove_first` deletes exactly the first occurrence and reports success; if there is none it
changes nothing and reports failure. -/
theorem C19_remove_first {v : Arr} {t zs : Text} (h : IsStr v t) {z : Mem} (hz : CStr z zs) :
    (∀ i, IsFirst t zs i → ∃ v', Str.removeFirst v z = .ok (v', true) ∧
      IsStr v' (t.take i ++ t.drop (i + zs.length)) ∧ v'.cap = v.cap) ∧
    (¬ Occurs t zs → Str.removeFirst v z = .ok (v, false)) := by
  refine ⟨fun i hi => ?_, removeFirst_none h hz⟩
  obtain ⟨v', e, s, c, -⟩ := removeFirst_some h hz hi
  exact ⟨v', e, by simpa [splice] using s, c⟩

example : (Str.removeFirst (strObj [97, 98, 97, 98] 0) (zstr [98])).mapOk (fun r => (Str.z r.1, r.2)) =
    .ok (.ok [97, 97, 98], true) := by decide +kernel

/-- What `remove_last` really does: with `l` the last position of the left-to-right scan, it removes the
characters from position `length - l` on, not from `l` on. -/
theorem C20_remove_last_actual {E : Env} {v : Arr} {t zs : Text} (h : IsStr v t) {z : Mem} (hz : CStr z zs)
    (h0 : zs ≠ []) {k l : Nat} (hk : t.length < k) (hl : (positions t zs).getLast? = some l) :
    (0 < l → ∃ v', Str.removeLast E k v z = .ok (v', true) ∧
      IsStr v' (t.take (t.length - l) ++ t.drop (t.length - l + zs.length)) ∧ v'.cap = v.cap) ∧
    (l = 0 → E.debug = true → Str.removeLast E k v z = .exit .dbgAssert) := by
  have hp : 0 < zs.length := List.length_pos_iff.2 h0
  have ho := (positions_last h0 _ t l (Nat.le_refl _) hl).1
  have hlen := h.le
  have hlim := h.lim
  have hle := ho.le
  have hstr := strstrAt_ok h.text hz.text (i := 0) (by omega)
  have w : wmul v.len v.elsize = t.length := by rw [h.es, h.len]; exact wmul_one (by omega)
  have w2 : wsub t.length l = t.length - l := wsub_eq (by omega) (by omega)
  rcases exists_first_or_none t zs with ⟨i, hi, e⟩ | ⟨hn, e⟩
  · have hrl : Str.removeLast E k v z = (do
        let s ← Str.remove E v (t.length - l) zs.length
        .ok (s, true)) := by
      simp only [Str.removeLast, strlen_ok hz.text, bind_ok, hstr, List.drop_zero, e, Option.map_some, Nat.zero_add,
        lastInstance_first h.text hz.text h0 hi hk hl, w, w2]
    rw [hrl]
    constructor
    · intro hl0
      obtain ⟨v', e', s', c', -⟩ := remove_ok (E := E) h (i := t.length - l) hp (by omega)
      exact ⟨v', by rw [e', bind_ok], s', c'⟩
    · intro hl0 hD
      subst hl0
      simp [Str.remove, hp, h.len, dassert_false hD]
  · exact absurd ⟨l, ho⟩ hn

/-- **C20** (partial: only when the last occurrence starts exactly in the middle of the text; the code
measures the position from the wrong end, see `C20_remove_last_actual`.) -/
theorem C20_remove_last_partial {E : Env} {v : Arr} {t zs : Text} (h : IsStr v t) {z : Mem} (hz : CStr z zs)
    (h0 : zs ≠ []) (hno : NoOverlap t zs) {k l : Nat} (hk : t.length < k) (hl : IsLast t zs l) (hm : t.length = l + l) :
    ∃ v', Str.removeLast E k v z = .ok (v', true) ∧ IsStr v' (t.take l ++ t.drop (l + zs.length)) := by
  have hp : 0 < zs.length := List.length_pos_iff.2 h0
  have hle := hl.1.le
  obtain ⟨l', hl'⟩ : ∃ l', (positions t zs).getLast? = some l' := by
    cases hg : (positions t zs).getLast? with
    | none => exact absurd (List.getLast?_eq_none_iff.1 hg) (positions_ne_nil h0 ⟨l, hl.1⟩)
    | some l' => exact ⟨l', rfl⟩
  have hla := positions_last_isLast h0 hno hl'
  have : l' = l := by
    rcases Nat.lt_trichotomy l' l with hh | hh | hh
    · exact absurd hl.1 (hla.2 l hh)
    · exact hh
    · exact absurd hla.1 (hl.2 l' hh)
  subst this
  obtain ⟨v', e, s, -⟩ := (C20_remove_last_actual (E := E) h hz h0 hk hl').1 (by omega)
  rw [show t.length - l' = l' by omega] at s
  exact ⟨v', e, s⟩

/-- **C20 is false for every text whose last occurrence starts less than its own length behind the front**: as many characters as there are in front of the occurrence are cut off the end,
which is not the right number. -/
theorem C20_remove_last_cuts_end {E : Env} {v : Arr} {t zs : Text} (h : IsStr v t) {z : Mem} (hz : CStr z zs)
    (h0 : zs ≠ []) {k l : Nat} (hk : t.length < k) (hl : (positions t zs).getLast? = some l) (hl0 : 0 < l) (hlt : l < zs.length) :
    (∃ v', Str.removeLast E k v z = .ok (v', true) ∧ IsStr v' (t.take (t.length - l))) ∧ t.take (t.length - l) ≠ t.take l ++ t.drop (l + zs.length) := by
  have hle := (positions_last h0 _ t l (Nat.le_refl _) hl).1.le
  obtain ⟨v', e, i, -⟩ := (C20_remove_last_actual (E := E) h hz h0 hk hl).1 hl0
  rw [List.drop_of_length_le (by omega), List.append_nil] at i
  refine ⟨⟨v', e, i⟩, fun hc => ?_⟩
  have := congrArg List.length hc
  simp only [List.length_take, List.length_append, List.length_drop] at this
  omega

example : (positions [120, 97, 98, 121, 122] [97, 98]).getLast? = some 1 := by decide +kernel

/-- **C20** (counterexample) Removing the last "b" of "abaa" removes an "a" instead. -/
theorem C20_remove_last_counterexample :
    (Str.removeLast exE 9 (strObj [97, 98, 97, 97] 0) (zstr [98])).mapOk (fun r => Str.z r.1) =
      .ok (.ok [97, 98, 97]) ∧ IsLast [97, 98, 97, 97] [98] 1 := by
  refine ⟨by decide +kernel, findSub_some.1 (by decide +kernel) |>.1, fun j hj ho => ?_⟩
  have hle := ho.le
  simp at hle
  have : j = 2 ∨ j = 3 := by omega
  rcases this with rfl | rfl
  · have := (occursAt_iff.1 ho).2; revert this; decide
  · have := (occursAt_iff.1 ho).2; revert this; decide

/-- **C20** (counterexample) If nothing is found, the behaviour is undefined, for every text. -/
theorem C20_remove_last_not_found_ub {E : Env} {v : Arr} {t zs : Text} (h : IsStr v t) {z : Mem} (hz : CStr z zs)
    (hn : ¬ Occurs t zs) (k : Nat) : Str.removeLast E k v z = .ub := by
  simp only [Str.removeLast, strlen_ok hz.text, bind_ok, strstrAt_ok h.text hz.text (Nat.zero_le _), List.drop_zero,
    findSub_none.2 hn, Option.map_none]

example : IsLast [97, 97, 98, 97] [98] 2 := by
  refine ⟨findSub_some.1 (by decide +kernel) |>.1, fun j hj ho => ?_⟩
  have hle := ho.le
  simp at hle
  have : j = 3 := by omega
  subst this
  have := (occursAt_iff.1 ho).2; revert this; decide

theorem deletes_sublist {z t u : Text} (h : Deletes z t u) : u.Sublist t := by
  induction h with
  | done t => exact List.Sublist.refl _
  | @step t u i _ _ ih =>
    refine ih.trans ?_
    conv_rhs => rw [← List.take_append_drop i t]
    simp only [splice, List.append_nil]
    refine (List.Sublist.refl _).append ?_
    rw [← List.drop_drop]
    exact List.drop_sublist _ _

theorem deletes_none {z t u : Text} (h : Deletes z t u) (hn : ¬ Occurs t z) : u = t := by
  cases h with
  | done => rfl
  | step hi _ => exact absurd ⟨_, hi.1⟩ hn

/-- The text left over is determined. -/
theorem deletes_unique {z t u u' : Text} (h : Deletes z t u) (h' : Deletes z t u') (hn : ¬ Occurs u z)
    (hn' : ¬ Occurs u' z) : u = u' := by
  induction h generalizing u' with
  | done t => exact (deletes_none h' hn).symm
  | @step t u i hi _ ih =>
    cases h' with
    | done => exact absurd ⟨_, hi.1⟩ hn'
    | @step _ _ j hj hd =>
      obtain rfl := hi.unique hj
      exact ih hd hn hn'

/-- **C21** (partial: non-empty `z`; see `C21_remove_all_empty_diverges`.)  `remove_all` terminates within
one iteration more than there are characters; the result is obtained by deleting, again and
again, the first occurrence of `z` (which determines it), is a subsequence of the old text, contains no `z`, and is the old text
if `z` did not occur. -/
theorem C21_remove_all_partial {v : Arr} {t zs : Text} (h : IsStr v t) {z : Mem} (hz : CStr z zs) (h0 : zs ≠ [])
    {k : Nat} (hk : t.length < k) :
    ∃ v' t', Str.removeAll k v z = .ok v' ∧ IsStr v' t' ∧ v'.cap = v.cap ∧ ¬ Occurs t' zs ∧
      Deletes zs t t' ∧ t'.Sublist t ∧ (¬ Occurs t zs → t' = t) := by
  obtain ⟨v', t', e, s, c, -, d, n⟩ := removeAll_ok hz h0 k h hk
  exact ⟨v', t', e, s, c, n, d, deletes_sublist d, deletes_none d⟩

/-- **C21** (counterexample) Removing all occurrences of "" never ends, whatever the text. -/
theorem C21_remove_all_empty_diverges {v : Arr} {t : Text} (h : IsStr v t) {z : Mem} (hz : CStr z []) :
    ∀ k, Str.removeAll k v z = .fuel := by
  intro k
  induction k generalizing v with
  | zero => rfl
  | succ k ih =>
    obtain ⟨v', e, s, -⟩ := removeFirst_some h hz (i := 0) ⟨⟨[], t, by simp, rfl⟩, by omega⟩
    rw [Str.removeAll, e, bind_ok]
    simp only [splice, List.take_zero, List.nil_append, List.length_nil, Nat.add_zero, List.drop_zero] at s
    exact ih s

example : (Str.removeAll 9 (strObj [97, 97, 98, 98, 99] 0) (zstr [97, 98])).mapOk Str.z = .ok (.ok [99]) := by decide +kernel

/-! ### C22-C25 -/

/-- **C22** Exactly the characters outside the set remain, in order. -/
theorem C22_remove_c {v : Arr} {t cs : Text} (h : IsStr v t) {c : Mem} (hc : CStr c cs) :
    ∃ v', Str.removeC v c = .ok v' ∧ IsStr v' (t.filter (fun x => decide (x ∉ cs))) ∧ v'.cap = v.cap := by
  obtain ⟨v', e, s, c, -⟩ := removeC_ok h hc
  exact ⟨v', e, s, c⟩

example : (Str.removeC (strObj [97, 98, 97, 99] 0) (zstr [97, 99])).mapOk Str.z = .ok (.ok [98]) := by decide +kernel

/-- **C23** `replace` terminates and rewrites the occurrences found from left to right. -/
theorem C23_replace {E : Env} {v : Arr} {t ss rs : Text} (h : IsStr v t) {sub rsub : Mem} (hs : CStr sub ss)
    (hr : CStr rsub rs) (hs0 : ss ≠ []) (hr0 : rs ≠ []) {k : Nat} (hk : t.length < k) :
    OkOr E (t.length + (replaceAll t ss rs).length + 1) (Str.replace E k v sub rsub) fun v' => IsStr v' (replaceAll t ss rs) ∧ v.cap ≤ v'.cap :=
  (replace_okOr h hs hr hs0 hr0 hk).mono fun _ h => ⟨h.1, h.2.1⟩

/-- **C23** What `replaceAll` means: nothing to do if `sub` does not occur, otherwise the text before the
first occurrence is kept, the occurrence becomes `r`, and the rest is treated in the same way. -/
theorem C23_replaceAll_meaning {t sub r : Text} (h0 : sub ≠ []) :
    (¬ Occurs t sub → replaceAll t sub r = t) ∧
    (∀ i, IsFirst t sub i →
      replaceAll t sub r = t.take i ++ r ++ replaceAll (t.drop (i + sub.length)) sub r) :=
  ⟨replaceAll_none, fun _ hi => replaceAll_first h0 hi⟩

example : (Str.replace exE 9 (strObj [97, 97, 97, 98] 0) (zstr [97]) (zstr [97, 97])).mapOk Str.z =
    .ok (.ok [97, 97, 97, 97, 97, 97, 98]) := by decide +kernel

/-- **C24** `replace_first` rewrites exactly the first occurrence; nothing happens if there is none (and `sub` is
not longer than the text; a longer one terminates the program). -/
theorem C24_replace_first_partial {E : Env} {v : Arr} {t ss rs : Text} (h : IsStr v t) {sub rsub : Mem} (hs : CStr sub ss)
    (hr : CStr rsub rs) (hs0 : ss ≠ []) (hr0 : rs ≠ []) :
    (∀ i, IsFirst t ss i → OkOr E (t.length + rs.length + 1) (Str.replaceFirst E v sub rsub) fun v' =>
      IsStr v' (t.take i ++ rs ++ t.drop (i + ss.length))) ∧
    (¬ Occurs t ss → ss.length ≤ t.length → Str.replaceFirst E v sub rsub = .ok v) ∧
    (t.length < ss.length → Str.replaceFirst E v sub rsub = .exit .enforce) := by
  have h0' : ¬ (ss.length = 0 ∨ rs.length = 0) := by simp [hs0, hr0]
  refine ⟨fun i hi => ?_, fun hn hl => ?_, fun hl => ?_⟩
  · have hle := hi.1.le
    have e : Str.replaceFirst E v sub rsub = Str.replaceAt E v i ss.length rs.length rsub := by
      simp only [Str.replaceFirst, strlen_ok hs.text, strlen_ok hr.text, bind_ok, if_neg h0', find_ok h hs (by omega), findSub_some.2 hi]
    rw [e]
    exact (replaceAt_okOr h hr hr0 (List.length_pos_iff.2 hs0) hle).mono fun _ h => h.1
  · simp only [Str.replaceFirst, strlen_ok hs.text, strlen_ok hr.text, bind_ok, if_neg h0', find_ok h hs hl, findSub_none.2 hn]
  · simp only [Str.replaceFirst, strlen_ok hs.text, strlen_ok hr.text, bind_ok, if_neg h0', find_long h hs hl, bind_exit]

/-- `replace_last` rewrites the last occurrence met by the left-to-right scan. -/
theorem C24_replace_last_actual {E : Env} {v : Arr} {t ss rs : Text} (h : IsStr v t) {sub rsub : Mem} (hs : CStr sub ss)
    (hr : CStr rsub rs) (hs0 : ss ≠ []) (hr0 : rs ≠ []) {k l : Nat} (hk : t.length < k)
    (hl : (positions t ss).getLast? = some l) :
    OkOr E (t.length + rs.length + 1) (Str.replaceLast E k v sub rsub) fun v' => IsStr v' (t.take l ++ rs ++ t.drop (l + ss.length)) := by
  have h0' : ¬ (ss.length = 0 ∨ rs.length = 0) := by simp [hs0, hr0]
  have ho := (positions_last hs0 _ t l (Nat.le_refl _) hl).1
  rcases exists_first_or_none t ss with ⟨i, hi, e⟩ | ⟨hn, e⟩
  · have er : Str.replaceLast E k v sub rsub = Str.replaceAt E v l ss.length rs.length rsub := by
      simp only [Str.replaceLast, strlen_ok hs.text, strlen_ok hr.text, bind_ok, if_neg h0',
        strstrAt_ok h.text hs.text (Nat.zero_le _), List.drop_zero, e, Option.map_some, Nat.zero_add,
        lastInstance_first h.text hs.text hs0 hi hk hl]
    rw [er]
    exact (replaceAt_okOr h hr hr0 (List.length_pos_iff.2 hs0) ho.le).mono fun _ h => h.1
  · exact absurd ⟨l, ho⟩ hn

/-- **C24** (partial: `sub` occurs and its occurrences do not overlap; see the two counterexamples.) -/
theorem C24_replace_last_partial {E : Env} {v : Arr} {t ss rs : Text} (h : IsStr v t) {sub rsub : Mem} (hs : CStr sub ss)
    (hr : CStr rsub rs) (hs0 : ss ≠ []) (hr0 : rs ≠ []) (hno : NoOverlap t ss) {k l : Nat} (hk : t.length < k)
    (hl : IsLast t ss l) :
    OkOr E (t.length + rs.length + 1) (Str.replaceLast E k v sub rsub) fun v' => IsStr v' (t.take l ++ rs ++ t.drop (l + ss.length)) := by
  obtain ⟨l', hl'⟩ : ∃ l', (positions t ss).getLast? = some l' := by
    cases hg : (positions t ss).getLast? with
    | none => exact absurd (List.getLast?_eq_none_iff.1 hg) (positions_ne_nil hs0 ⟨l, hl.1⟩)
    | some l' => exact ⟨l', rfl⟩
  have hla := positions_last_isLast hs0 hno hl'
  have : l' = l := by
    rcases Nat.lt_trichotomy l' l with hh | hh | hh
    · exact absurd hl.1 (hla.2 l hh)
    · exact hh
    · exact absurd hla.1 (hl.2 l' hh)
  subst this
  exact C24_replace_last_actual h hs hr hs0 hr0 hk hl'

/-- **C24** (counterexample) If `sub` does not occur, the behaviour of `replace_last` is undefined. -/
theorem C24_replace_last_not_found_ub {E : Env} {v : Arr} {t ss rs : Text} (h : IsStr v t) {sub rsub : Mem} (hs : CStr sub ss)
    (hr : CStr rsub rs) (hs0 : ss ≠ []) (hr0 : rs ≠ []) (hn : ¬ Occurs t ss) (k : Nat) :
    Str.replaceLast E k v sub rsub = .ub := by
  have h0' : ¬ (ss.length = 0 ∨ rs.length = 0) := by simp [hs0, hr0]
  simp only [Str.replaceLast, strlen_ok hs.text, strlen_ok hr.text, bind_ok, if_neg h0',
    strstrAt_ok h.text hs.text (Nat.zero_le _), List.drop_zero, findSub_none.2 hn, Option.map_none]

/-- **C24** (counterexample) With overlapping occurrences, not the last one is rewritten: the last "aa" of
"aaa" is at 1, but position 0 is replaced. -/
theorem C24_replace_last_overlap_counterexample :
    (Str.replaceLast exE 9 (strObj [97, 97, 97] 0) (zstr [97, 97]) (zstr [98])).mapOk Str.z = .ok (.ok [98, 97]) ∧
    IsLast [97, 97, 97] [97, 97] 1 := by
  refine ⟨by decide +kernel, ⟨[97], [], by simp, rfl⟩, fun j hj ho => ?_⟩
  have := ho.le
  simp at this
  omega

example : NoOverlap [97, 98, 97] [97] := by
  intro i j _ _ hij; simp; omega

/-- **C25** Every character is translated independently of the others. -/
theorem C25_replace_c {v : Arr} {t cs rs : Text} (h : IsStr v t) {c r : Mem} (hc : CStr c cs) (hr : CStr r rs)
    (hl : rs.length ≤ cs.length) (h0 : rs ≠ []) :
    ∃ v' t', Str.replaceC v c r = .ok v' ∧ IsStr v' t' ∧ v'.cap = v.cap ∧
      List.Forall₂ (IsTranslated cs rs) t t' := by
  obtain ⟨v', t', e, s, c', -, -, b⟩ := replaceC_ok h hc hr hl
  exact ⟨v', t', e, s, c', b h0⟩

/-- **C25** The translation is a function: the result is determined. -/
theorem C25_translation_deterministic {c r : Text} {x y y' : UInt8} (h : IsTranslated c r x y)
    (h' : IsTranslated c r x y') : y = y' := by
  rcases h with ⟨a, b⟩ | ⟨j, a, b, d⟩ <;> rcases h' with ⟨a', b'⟩ | ⟨j', a', b', d'⟩
  · rw [b, b']
  · exact absurd (List.mem_of_getElem? a') a
  · exact absurd (List.mem_of_getElem? a) a'
  · have : j = j' := by
      rcases Nat.lt_trichotomy j j' with hh | hh | hh
      · exact absurd a (b' j hh)
      · exact hh
      · exact absurd a' (b j' hh)
    subst this
    rcases d with ⟨d1, d2⟩ | ⟨d1, d2⟩ <;> rcases d' with ⟨d1', d2'⟩ | ⟨d1', d2'⟩
    · rw [d2] at d2'; exact Option.some.inj d2'
    · omega
    · omega
    · rw [d2] at d2'; exact Option.some.inj d2'

/-- **C25** With an empty replacement nothing changes; a replacement longer than the set is rejected. -/
theorem C25_replace_c_edge {v : Arr} {t cs rs : Text} (h : IsStr v t) {c r : Mem} (hc : CStr c cs) (hr : CStr r rs) :
    (rs = [] → Str.replaceC v c r = .ok v) ∧ (cs.length < rs.length → Str.replaceC v c r = .exit .enforce) := by
  constructor
  · rintro rfl
    simp [Str.replaceC, hc.text, hr.text]
  · intro hl
    have : ¬ rs.length ≤ cs.length := by omega
    simp [Str.replaceC, hc.text, hr.text, this]

example : (Str.replaceC (strObj [97, 98, 99, 100] 0) (zstr [98, 100, 97]) (zstr [49, 50])).mapOk Str.z =
    .ok (.ok [50, 49, 99, 50]) := by decide +kernel

/-! ### C35: views -/

/-- **C35** (partial: only `shrink`, `reserve`, `resize` check for views; the others do not, see the
counterexamples.)  These three reject every view. -/
theorem C35_views_rejected_partial {E : Env} {z : Mem} {v : Arr} (h : Str.createStatic z = .ok v) (n : Nat) :
    Str.shrink E v = .exit .enforce ∧
    (0 < n → Str.reserve E v n = .exit .enforce ∧ Str.resize E v n = .exit .enforce) := by
  have hv : v.isView = true := by
    simp only [Str.createStatic, bind_eq_ok] at h
    obtain ⟨l, -, h⟩ := h
    injection h with h
    rw [← h]
  refine ⟨by simp [Str.shrink, hv], fun hn => ⟨by simp [Str.reserve, hv, hn], by simp [Str.resize, hv, hn]⟩⟩

/-- **C35** A view shows the viewed text. -/
theorem C35_view_shows_text {z : Mem} {t : Text} (hz : CStr z t) :
    ∃ v, Str.createStatic z = .ok v ∧ Str.z v = .ok t ∧ Str.length v = t.length ∧ v.mem = z :=
  ⟨⟨t.length, 0, 1, 0, true, z⟩, by simp only [Str.createStatic, strlen_ok hz.text, bind_ok], hz.text, rfl, rfl⟩

/-- **C35** (counterexample) `clear` writes through every view of a non-empty text. -/
theorem C35_clear_writes_through_view {z : Mem} {t : Text} (hz : CStr z t) (h0 : t ≠ []) :
    ∃ v v', Str.createStatic z = .ok v ∧ Str.clear v = .ok v' ∧ v'.mem ≠ z := by
  obtain ⟨⟨rest, hm⟩, hn⟩ := scanZ_eq_ok.1 hz.text
  cases t with
  | nil => exact absurd rfl h0
  | cons a t =>
    have hc : Str.clear ⟨t.length + 1, 0, 1, 0, true, z⟩ = .ok ⟨0, 0, 1, 0, true, some 0 :: (t.map some ++ some 0 :: rest)⟩ := by
      have := putc_mid [] (t.map some ++ some 0 :: rest) (some a) 0 (i := 0) rfl
      simp only [Str.clear, hm]
      simp only [List.map_cons, List.cons_append, List.nil_append] at *
      rw [this, bind_ok]
    refine ⟨_, _, by simp only [Str.createStatic, strlen_ok hz.text, bind_ok, List.length_cons], hc, ?_⟩
    rw [hm]
    simp at hn ⊢
    exact hn.1

/-- **C35** (counterexample) `append` to a view of a text whose memory ends with its terminator writes
outside that memory, for every non-empty text. -/
theorem C35_append_to_view_ub {E : Env} {t zs : Text} (ht : 0 ∉ t) (hl : t.length < 2 ^ 56) (h0 : t ≠ []) {z : Mem} (hz : CStr z zs)
    (hz0 : zs ≠ []) :
    (Str.createStatic (zstr t) >>= fun v => Str.append E v z) = .ub := by
  have hp : 0 < zs.length := List.length_pos_iff.2 hz0
  have hp' : 0 < t.length := List.length_pos_iff.2 h0
  have hzl := hz.lim
  have hs : hasSpace ⟨t.length, 0, 1, 0, true, zstr t⟩ = 2 ^ 64 - t.length := by
    simp only [hasSpace, wsub]; omega
  have w1 : wmul t.length 1 = t.length := wmul_one (by omega)
  have w2 : wmul zs.length 1 = zs.length := wmul_one (by omega)
  have w3 : wadd t.length zs.length = t.length + zs.length := wadd_eq (by omega)
  have hg : Str.grow E ⟨t.length, 0, 1, 0, true, zstr t⟩ zs.length = .ok ⟨t.length, 0, 1, 0, true, zstr t⟩ := by
    simp only [Str.grow, hs]
    rw [if_neg (by omega)]
  have hd : dassert E (decide (zs.length > 0)) = .ok () := by simp [hp]
  obtain ⟨tail, hb⟩ := hz.begins
  have hzz : zs.length ≤ z.length := by rw [hb]; simp
  simp only [Str.createStatic, strlen_ok (cstr_zstr ht hl).text, bind_ok, append_eq hz, Str.appendN, hd, hg, w1, w2, w3]
  by_cases h1 : zs.length = 1
  · have : vtMemcpyIn (zstr t) t.length z zs.length = .ok (t.map some ++ z.take 1) := by
      rw [vtMemcpyIn, if_neg (by omega), memcpyIn_ok hzz (by simp [zstr, h1]), h1]
      simp [zstr]
    rw [this, bind_ok, putc_ub (by simp [h1]; omega), bind_ub]
  · have : vtMemcpyIn (zstr t) t.length z zs.length = .ub := by
      rw [vtMemcpyIn, if_neg (by omega), memcpyIn, readN_ok (by omega), bind_ok, writeN_ub]
      simp [zstr]; omega
    rw [this, bind_ub]

example : (Str.createStatic (zstr [97]) >>= fun v => Str.append exE v (zstr [98])) = .ub := by decide +kernel

/-! ### C36: formatted text -/

/-- **C36** `appendf` appends exactly the text the formatter produced, whatever its length. -/
theorem C36_appendf {E : Env} {v : Arr} {t out : Text} (h : IsStr v t) (h0 : 0 ∉ out) (hl : out.length < 2 ^ 31)
    (ha : t.length + out.length ≤ v.cap ∨ E.allocOk (t.length + out.length + 1) = true) :
    ∃ v', Str.appendf E v out = .ok v' ∧ IsStr v' (t ++ out) ∧ v'.cap = max v.cap (t.length + out.length) := by
  have hs : store E ⟨t, v.cap⟩ (t ++ out) = .ok ⟨t ++ out, max v.cap (t.length + out.length)⟩ := by
    rcases store_cases E v t (t ++ out) with ⟨-, hs⟩ | ⟨hc, hb, -⟩
    · rw [hs]; simp
    · simp only [List.length_append] at hc hb
      rcases ha with ha | ha
      · omega
      · rw [ha] at hb; cases hb
  rcases appendf_eq (E := E) v (by omega) h h0 with ⟨v', e, s, st⟩ | ⟨e, st⟩
  · rw [hs] at st
    simp only [ok.injEq, StrState.mk.injEq, true_and] at st
    exact ⟨v', e, s, st.symm⟩
  · rw [hs] at st; cases st

/-- **C36** `insertf` inserts exactly the text the formatter produced, whatever its length, on both sides of the
internal buffer size.  Missing: a text of exactly `INT_MAX` characters, see `C36_insertf_longest`. -/
theorem C36_insertf_partial {E : Env} (hD : E.debug = true) {v : Arr} {t out : Text} (h : IsStr v t) (h0 : 0 ∉ out)
    (hl : out.length + 1 < 2 ^ 31) {i : Nat} (hi : i < t.length) :
    OkOr E (4 * t.length + 2 * out.length + 56) (Str.insertf E v i out) fun v' => IsStr v' (t.take i ++ out ++ t.drop i) := by
  rcases sim_insertf hD h h0 hl i with ⟨v', t', e, s, st⟩ | ⟨w, e, st⟩
  · simp only [StrStep, hi, if_true] at st
    left
    refine ⟨v', e, ?_⟩
    split at st
    · rcases store_cases E v t (t.take i ++ out ++ t.drop i) with ⟨-, hs⟩ | ⟨-, -, hs⟩
      · rw [hs] at st
        simp only [ok.injEq, StrState.mk.injEq] at st
        exact st.1 ▸ s
      · rw [hs] at st; cases st
    · rcases st with ⟨c, -, -, st⟩ | ⟨st, -⟩
      · simp only [ok.injEq, StrState.mk.injEq] at st
        exact st.1 ▸ s
      · cases st
  · simp only [StrStep, hi, if_true] at st
    right
    split at st
    · rcases store_cases E v t (t.take i ++ out ++ t.drop i) with ⟨-, hs⟩ | ⟨-, hb, hs⟩
      · rw [hs] at st; cases st
      · rw [hs] at st
        injection st with st
        subst st
        exact ⟨e, _, by simp; omega, hb⟩
    · rcases st with ⟨c, -, -, st⟩ | ⟨st, hn⟩
      · cases st
      · injection st with st
        subst st
        exact ⟨e, hn.le (by simp; omega)⟩

example : (Str.appendf exE (strObj [97] 0) [98, 99]).mapOk Str.z = .ok (.ok [97, 98, 99]) := by decide +kernel
example : (Str.insertf exE (strObj [97, 100] 0) 1 [98, 99]).mapOk Str.z = .ok (.ok [97, 98, 99, 100]) := by decide +kernel

end Vita
