import Verif.Model.Query
import Verif.Props.Plist
import Verif.Props.StrEdit
import Mathlib.Data.List.TakeWhile
/-!
# What the query functions promise (C84), recomputing the length of a string (C85)
-/

namespace Vita
open Out Spec

/-- Append pointers one after the other (for vectors, `pushAll`). -/
def plPushAll (E : Env) : Arr → List Ptr → Out Arr
  | p, [] => .ok p
  | p, q :: qs => Plist.pushBack E p q >>= fun p' => plPushAll E p' qs

/-- **C84** Length, capacity, free space, element size and emptiness of a vector are those of its contents. -/
theorem C84_vec_queries (v : Arr) (h : v.WF) :
    Vec.length v = v.elems.length ∧ Query.capacity v = v.abs.cap ∧
    Vec.length v + Query.space v = Query.capacity v ∧
    (Vec.isEmpty v = true ↔ v.elems = []) ∧ (∀ x ∈ v.elems, x.length = Query.elsize v) := by
  have hl : v.elems.length = v.len := by simp [Arr.elems]
  have hs := hasSpace_eq h
  have hle := h.le
  obtain ⟨_, _, _, hes, _⟩ := h.split
  refine ⟨hl.symm, rfl, ?_, ?_, hes⟩
  · show v.len + hasSpace v = v.cap
    omega
  · rw [← List.length_eq_zero_iff, hl]
    simp [Vec.isEmpty]

/-- **C84** The space a vector reports can be used: that many values are appended without any request for memory (`E` may refuse every request),
and the capacity stays as it was. -/
theorem C84_vec_space_usable (E : Env) (xs : List Mem) : ∀ (v : Arr), v.WF → (∀ x ∈ xs, Query.elsize v ≤ x.length) →
    xs.length ≤ Query.space v →
    ∃ v', pushAll E v xs = .ok v' ∧ v'.WF ∧ v'.elems = v.elems ++ xs.map (·.take v.elsize) ∧ Query.capacity v' = Query.capacity v ∧
      Query.space v' = Query.space v - xs.length := by
  induction xs with
  | nil => intro v h _ _; exact ⟨v, rfl, h, by simp, rfl, rfl⟩
  | cons x xs ih =>
    intro v h hx hs
    have hs0 : hasSpace v = v.cap - v.len := hasSpace_eq h
    have hs1 : Query.space v = hasSpace v := rfl
    have hl : v.elems.length = v.len := by simp [Arr.elems]
    simp only [List.length_cons] at hs
    obtain ⟨h1, h2⟩ := pushBack_spec (E := E) h (val := x) (hx x (by simp))
    have hroom : Spec.withRoom E v.elsize v.abs (v.elems ++ [x.take v.elsize]) = .ok ⟨v.elems ++ [x.take v.elsize], v.cap⟩ := by
      rw [Spec.withRoom, if_pos (show v.abs.elems.length < v.abs.cap from (by omega : v.elems.length < v.cap))]; rfl
    rw [hroom] at h1
    cases hp : Vec.pushBack E v x with
    | ok v1 =>
      rw [hp] at h1
      simp only [mapOk] at h1
      injection h1 with h1
      obtain ⟨w1, s1⟩ := h2 v1 hp
      have he : v1.elems = v.elems ++ [x.take v.elsize] := congrArg Spec.SeqState.elems h1
      have hc : v1.cap = v.cap := congrArg Spec.SeqState.cap h1
      have hl1 : v1.len = v.len + 1 := by
        have := congrArg List.length he
        simpa [Arr.elems] using this
      have hs2 : Query.space v1 = Query.space v - 1 := by
        show hasSpace v1 = hasSpace v - 1
        rw [hasSpace_eq w1, hs0, hc, hl1]; omega
      have hes : v1.elsize = v.elsize := s1.1
      obtain ⟨v2, g1, g2, g3, g4, g5⟩ := ih v1 w1 (fun y hy => by
        show v1.elsize ≤ y.length
        rw [hes]; exact hx y (by simp [hy])) (by omega)
      refine ⟨v2, by rw [pushAll, hp]; exact g1, g2, ?_, g4.trans hc, ?_⟩
      · rw [g3, he, hes]; simp
      · rw [g5, hs2, List.length_cons]; omega
    | _ => rw [hp] at h1; cases h1

/-- **C84** The same for pointer lists (pointers that are not NULL). -/
theorem C84_plist_space_usable (E : Env) (qs : List Ptr) : ∀ (p : Arr) (s : Spec.SeqState Ptr), PlHolds p s → (∀ q ∈ qs, q ≠ 0) →
    qs.length ≤ Query.space p →
    ∃ p', plPushAll E p qs = .ok p' ∧ PlHolds p' ⟨s.elems ++ qs, s.cap⟩ := by
  induction qs with
  | nil => intro p s h _ _; exact ⟨p, rfl, by simpa using h⟩
  | cons q qs ih =>
    intro p s h hq hs
    have hs0 : hasSpace p = p.cap - p.len := hasSpace_eq h.wf
    have hs1 : Query.space p = hasSpace p := rfl
    simp only [List.length_cons] at hs
    have hq0 : q ≠ 0 := hq q (by simp)
    obtain ⟨p1, g1, g2, g3, g4, -⟩ := C84_vec_space_usable E [ptrBytes q] p h.wf
      (by intro x hx; simp only [List.mem_singleton] at hx; subst hx; show p.elsize ≤ _; rw [h.es, ptrBytes_length])
      (by simp; omega)
    have hp : Plist.pushBack E p q = .ok p1 := by
      rw [plPush_eq E p h.wf q hq0 h.es]
      simp only [pushAll, bind_eq_ok] at g1
      obtain ⟨v', e1, e2⟩ := g1
      injection e2 with e2
      rw [e1, e2]
    have hes : p1.elsize = 8 := by
      obtain ⟨-, h2⟩ := pushBack_spec (E := E) h.wf (val := ptrBytes q) (by rw [h.es, ptrBytes_length])
      exact (h2 p1 (by rw [← plPush_eq E p h.wf q hq0 h.es]; exact hp)).2.1.trans h.es
    have hh : PlHolds p1 ⟨s.elems ++ [q], s.cap⟩ := by
      refine ⟨g2, hes, ?_⟩
      show (⟨p1.elems, p1.cap⟩ : Spec.SeqState (List Byte)) = _
      rw [g3, h.elems, show p1.cap = p.cap from g4, h.cap, encState, h.es]
      simp [List.take_of_length_le (Nat.le_of_eq (ptrBytes_length q))]
    have hl1 : p1.len = p.len + 1 := by
      have a := hh.len; have b := h.len
      simp at a; omega
    obtain ⟨p2, e1, e2⟩ := ih p1 _ hh (fun x hx => hq x (by simp [hx])) (by
      show qs.length ≤ hasSpace p1
      rw [hasSpace_eq g2, hl1, show p1.cap = p.cap from g4]; omega)
    exact ⟨p2, by rw [plPushAll, hp]; exact e1, by simpa using e2⟩

/-- **C84** Length, capacity, free space and emptiness of a string are those of its text. -/
theorem C84_str_queries (v : Arr) (t : Text) (h : IsStr v t) :
    Str.length v = t.length ∧ Str.length v + Query.space v = Query.capacity v ∧ (Str.isEmpty v = true ↔ t = []) ∧
    (Query.plistIsEmpty v = Str.isEmpty v) := by
  have hs := hasSpace_str h
  have hle := h.le
  refine ⟨h.len, ?_, ?_, rfl⟩
  · show v.len + hasSpace v = v.cap
    rw [hs, h.len]; omega
  · rw [← List.length_eq_zero_iff, ← h.len]
    simp [Str.isEmpty]

/-- **C84** The space a string reports can be used: a text of that length is appended or inserted without any request for memory. -/
theorem C84_str_space_usable (E : Env) (v : Arr) (t ys : Text) (h : IsStr v t) (z : Mem) (hz : scanZ z = .ok ys) (h0 : ys ≠ [])
    (hs : ys.length ≤ Query.space v) :
    (∃ v', Str.appendN E v z ys.length = .ok v' ∧ IsStr v' (t ++ ys) ∧ Query.capacity v' = Query.capacity v) ∧
    (∀ i, i < t.length → ∃ v', Str.insert E v z i = .ok v' ∧ IsStr v' (t.take i ++ ys ++ t.drop i) ∧ Query.capacity v' = Query.capacity v) := by
  have hs0 := hasSpace_str h
  have hs1 : Query.space v = hasSpace v := rfl
  have hle := h.le
  have hlim := h.lim
  have hfit : t.length + ys.length ≤ v.cap := by omega
  have hn : ys.length < 2 ^ 63 := by omega
  constructor
  · obtain ⟨v', e1, e2, e3, -⟩ := appendN_ok (E := E) h (scanZ_eq_ok.1 hz).2 (begins_of_scanZ hz) hn
      (Or.inl (List.length_pos_iff.2 h0)) (Or.inl hfit)
    exact ⟨v', e1, e2, by show v'.cap = v.cap; rw [e3]; omega⟩
  · intro i hi
    obtain ⟨v', e1, e2, e3, -⟩ := insert_ok (E := E) h hz hn (Nat.le_of_lt hi) (Or.inl hi) (Or.inl hfit)
    exact ⟨v', e1, e2, by show v'.cap = v.cap; rw [e3]; omega⟩

/-- Two free slots are used although every request for memory is refused. -/
example : (pushAll ⟨true, fun _ => false, true, by simp⟩ ⟨1, 3, 1, 0, false, [some 1, none, none]⟩ [[some 2], [some 3]]).mapOk (·.mem) =
    .ok [some 1, some 2, some 3] := by decide +kernel

/-! ### C06, C08, C13: the pointer-list functions that are not in a history -/

/-- **C06** (pointer lists) `vt_plist_pop_get` returns the last pointer and removes it; on an empty list it returns NULL and changes nothing. -/
theorem C06_plist_pop_get (p : Arr) (s : Spec.SeqState Ptr) (h : PlHolds p s) :
    (s.elems = [] → Plist.popGet p = .ok (p, 0)) ∧
    (∀ l q, s.elems = l ++ [q] → ∃ p', Plist.popGet p = .ok (p', q) ∧ PlHolds p' ⟨l, s.cap⟩) := by
  have hlen := h.len
  constructor
  · intro h0
    rw [h0] at hlen
    simp only [List.length_nil] at hlen
    simp [Plist.popGet, hlen]
  · intro l q hs
    have hl : p.len = l.length + 1 := by rw [hlen, hs]; simp
    obtain ⟨v2, p1, p2, p3, p4, p5⟩ := popGet_spec h.wf (by omega)
    have hx : p.elems[l.length]? = some (ptrBytes q) := by
      rw [h.elems, hs]; simp
    have hw : wsub p.len 1 = l.length := by
      have := h.wf.lenlt; have := h.wf.le; have hlm := h.wf.lim; have hes := h.es
      rw [hes] at hlm
      rw [wsub_eq (by omega) (by omega)]; omega
    have hv2 : v2 = { p with len := l.length } := by
      unfold Vec.popGet at p1
      rw [if_pos (by omega : p.len > 0), bind_eq_ok] at p1
      obtain ⟨bs, -, e⟩ := p1
      rw [hw] at e
      exact (Prod.mk.inj (Out.ok.inj e)).1.symm
    refine ⟨{ p with len := l.length }, ?_, ?_⟩
    · unfold Plist.popGet
      rw [if_pos (by omega : p.len > 0), hw]
      dsimp only
      rw [loadPtr_elem h.wf h.es hx]; rfl
    · rw [← hv2]
      refine ⟨p4, by rw [hv2]; exact h.es, ?_⟩
      show (⟨v2.elems, v2.cap⟩ : Spec.SeqState (List Byte)) = _
      rw [p2, h.elems, hs, hv2, encState, ← h.cap]; simp

/-- **C08** (pointer lists, partial: non-empty) A copy holds the same pointers. -/
theorem C08_plist_dup_partial (E : Env) (p : Arr) (s : Spec.SeqState Ptr) (h : PlHolds p s) (h0 : s.elems ≠ [])
    (ha : E.allocOk arrStructSize = true) (hb : E.allocOk (s.elems.length * 8) = true) :
    ∃ d, Plist.dup E p = .ok d ∧ PlHolds d ⟨s.elems, s.elems.length⟩ := by
  have hl := h.len
  have hp : 0 < p.len := by rw [hl]; exact List.length_pos_iff.2 h0
  obtain ⟨d, e1, e2, e3, e4, e5⟩ := C08_dup_partial E p h.wf hp ha (by rw [h.es, hl]; exact hb)
  refine ⟨d, ?_, ⟨e5, e4.trans h.es, ?_⟩⟩
  · rw [← e1]
    simp only [Plist.dup, Vec.dup, Plist.create, Vec.create, h.es, show (8 : Nat) > 0 by omega, decide_true, dassert_true, bind_ok]
  · show (⟨d.elems, d.cap⟩ : Spec.SeqState (List Byte)) = _
    rw [e2, e3, h.elems, encState]; simp [Vec.length, hl]

/-- **C08** (pointer lists, refutation of the empty case) Duplicating an empty list terminates a debug build. -/
theorem C08_plist_dup_empty_exits (E : Env) (hD : E.debug = true) (p : Arr) (h0 : Plist.length p = 0) :
    Plist.dup E p = .exit .dbgAssert := by
  have : p.len = 0 := h0
  simp [Plist.dup, Plist.create, this, dassert_false hD]

/-- **C13** `vt_plist_resize` keeps the first pointers in place; a larger size adds slots without a determined value. -/
theorem C13_plist_resize (E : Env) (p : Arr) (s : Spec.SeqState Ptr) (h : PlHolds p s) (n : Nat) (hn : 0 < n) (hf : n * 8 < 2 ^ 63)
    (ha : n = s.cap ∨ E.allocOk (n * 8) = true) :
    ∃ p' extra, Plist.resize E p n = .ok p' ∧ p'.elems = (s.elems.take n).map ptrBytes ++ extra ∧
      extra.length = n - s.elems.length ∧ Plist.length p' = n ∧ Query.capacity p' = n ∧
      (n ≤ s.elems.length → PlHolds p' ⟨s.elems.take n, n⟩) := by
  obtain ⟨p', extra, e1, e2, e3, e4, e5⟩ := resize_spec (E := E) h.wf hn (by rw [h.es]; exact hf) (by rw [h.es, h.cap]; exact ha)
  have he : p'.elems = p.elems.take n ++ extra := congrArg Spec.SeqState.elems e2
  have hc : p'.cap = n := congrArg Spec.SeqState.cap e2
  have hl : p.elems.length = s.elems.length := by rw [h.elems]; simp
  have hlen : p'.len = n := by
    have := congrArg List.length he
    simp only [List.length_append, List.length_take, e3] at this
    simp only [Arr.elems, chunks_length] at this ⊢
    omega
  refine ⟨p', extra, ?_, ?_, by rw [e3, hl], hlen, hc, ?_⟩
  · rw [← e1]; simp only [Plist.resize, Vec.resize]
  · rw [he, h.elems, List.map_take]
  · intro hle
    have hx : extra = [] := List.length_eq_zero_iff.1 (by rw [e3, hl]; omega)
    refine ⟨e4, e5.1.trans h.es, ?_⟩
    rw [e2, hx, h.elems, encState]; simp

example : (Plist.popGet ⟨2, 3, 8, 1, false, ptrBytes 7 ++ ptrBytes 8 ++ ptrBytes 0⟩).mapOk (fun r => (r.1.len, r.2)) = .ok (1, 8) := by
  decide +kernel

/-! ### C16: setting a string -/

/-- **C16** `vt_str_set` replaces the text by one that is not longer than the current one (and not empty); a longer text terminates the program. -/
theorem C16_set (E : Env) (v : Arr) (t ys : Text) (h : IsStr v t) (z : Mem) (hz : CStr z ys) :
    (ys ≠ [] → ys.length ≤ t.length → ∃ v', Str.set E v z = .ok v' ∧ IsStr v' ys ∧ v'.cap = v.cap) ∧
    (t.length < ys.length → Str.set E v z = .exit .enforce) := by
  have hs : strlen z = .ok ys.length := by simp [strlen, hz.text]
  constructor
  · intro h0 hl
    obtain ⟨v', e1, e2, e3, -⟩ := setN_ok (E := E) h (scanZ_eq_ok.1 hz.text).2 (begins_of_scanZ hz.text)
      (Or.inl (List.length_pos_iff.2 h0)) hl
    exact ⟨v', by rw [Str.set, hs, bind_ok, e1], e2, e3⟩
  · intro hl
    rw [Str.set, hs, bind_ok, setN_reject h hl]

/-! ### C85: recomputing the length -/

theorem strnlen_text : ∀ (T : Text) (x : Byte) (rest : Mem) (n : Nat), 0 ∉ T → (T.length = n ∨ T.length < n ∧ x = some 0) →
    strnlen (T.map some ++ x :: rest) n = .ok T.length
  | [], x, rest, n, _, hx => by
    rcases hx with rfl | ⟨h, rfl⟩
    · simp [strnlen]
    · cases n with
      | zero => simp at h
      | succ n => simp [strnlen]
  | b :: T, x, rest, n, h0, hx => by
    cases n with
    | zero => simp at hx
    | succ n =>
      have hb : b ≠ 0 := fun h => h0 (by simp [h])
      rw [List.map_cons, List.cons_append, strnlen, if_neg hb,
        strnlen_text T x rest n (fun h => h0 (List.mem_cons_of_mem _ h)) (by
          simp only [List.length_cons] at hx
          exact hx.imp (by omega) (And.imp_left (by omega)))]
      rfl

theorem validateLen_text {v : Arr} {T : Text} {x : Byte} {rest : Mem} (hm : v.mem = T.map some ++ x :: rest) (h0 : 0 ∉ T)
    (hx : T.length = v.cap ∨ T.length < v.cap ∧ x = some 0) :
    Str.validateLen v = .ok ({ v with mem := T.map some ++ some 0 :: rest, len := T.length }, T.length) := by
  rw [Str.validateLen, hm, strnlen_text T x rest _ h0 hx, bind_ok, putc_mid _ _ _ _ (by simp)]; rfl

/-- **C85** After other code has written the bytes `bs` into the memory of a string, either all of its capacity or fewer but with a NUL
among them, `vt_str_validate_len` makes it a string again: the text is what was written up to the first NUL, or all of it if there is none,
it is terminated, and its length is returned.  What is behind the written bytes may be indeterminate. -/
theorem C85_validate_len (v : Arr) (bs : Text) (rest : Mem) (hes : v.elsize = 1) (hv : v.isView = false) (hm : v.mem = bs.map some ++ rest)
    (hsz : v.mem.length = v.cap + 1) (hc : bs.length = v.cap ∨ bs.length ≤ v.cap ∧ 0 ∈ bs) (hlim : v.cap + 1 < 2 ^ 56) :
    ∃ v', Str.validateLen v = .ok (v', (bs.takeWhile (· ≠ 0)).length) ∧ IsStr v' (bs.takeWhile (· ≠ 0)) ∧ v'.cap = v.cap := by
  have hsplit : bs = bs.takeWhile (· ≠ 0) ++ bs.dropWhile (· ≠ 0) := (List.takeWhile_append_dropWhile).symm
  have hnz : (0 : UInt8) ∉ bs.takeWhile (· ≠ 0) := fun h => by
    have := List.mem_takeWhile_imp h
    simp at this
  have hl : v.mem.length = bs.length + rest.length := by rw [hm]; simp
  obtain ⟨x, r, hmem, hx⟩ : ∃ x r, v.mem = (bs.takeWhile (· ≠ 0)).map some ++ x :: r ∧
      ((bs.takeWhile (· ≠ 0)).length = v.cap ∨ (bs.takeWhile (· ≠ 0)).length < v.cap ∧ x = some 0) := by
    cases hd : bs.dropWhile (· ≠ 0) with
    | nil =>
      rw [hd, List.append_nil] at hsplit
      rw [← hsplit]
      rcases hc with hc | ⟨-, hc⟩
      · cases rest with
        | nil => simp at hl; omega
        | cons y r => exact ⟨y, r, hm, Or.inl hc⟩
      · rw [hsplit] at hc; exact absurd hc hnz
    | cons a l =>
      have ha : a = 0 := by
        have := List.head_dropWhile_not (fun b : UInt8 => decide (b ≠ 0)) (l := bs) (by rw [hd]; simp)
        simp only [hd, List.head_cons] at this
        simpa using this
      rw [hd, ha] at hsplit
      refine ⟨some 0, l.map some ++ rest, ?_, Or.inr ⟨?_, rfl⟩⟩
      · conv_lhs => rw [hm, hsplit]
        simp
      · have := congrArg List.length hsplit
        simp only [List.length_append, List.length_cons] at this
        omega
  refine ⟨_, validateLen_text hmem hnz hx, ?_, rfl⟩
  have := congrArg List.length hmem
  simp only [List.length_append, List.length_cons, List.length_map] at this
  exact IsStr.mk' hes hv rfl hnz rfl (by simp only; omega) hlim

/-- **C85** A string that nobody has written into is not changed. -/
theorem C85_validate_unchanged (v : Arr) (t : Text) (h : IsStr v t) : Str.validateLen v = .ok (v, t.length) := by
  obtain ⟨rest, hm, hr⟩ := h.split
  have hle := h.le
  rw [validateLen_text hm h.nz (by by_cases he : t.length = v.cap; · exact Or.inl he
                                   · exact Or.inr ⟨by omega, rfl⟩), ← hm, ← h.len]

/-- **C85** (refutation for views) A view has capacity 0: `vt_str_validate_len` writes a NUL over the first character of the text it is a
view of, whatever the text, and says that the length is 0. -/
theorem C85_view (c : UInt8) (t : Text) (h0 : 0 ∉ c :: t) :
    ∃ v, Str.createStatic (zstr (c :: t)) = .ok v ∧ Str.z v = .ok (c :: t) ∧
      ∃ v', Str.validateLen v = .ok (v', 0) ∧ v'.mem = some 0 :: zstr t := by
  have hs : scanZ (zstr (c :: t)) = .ok (c :: t) := scanZ_eq_ok.2 ⟨⟨[], rfl⟩, h0⟩
  refine ⟨⟨t.length + 1, 0, 1, 0, true, zstr (c :: t)⟩, by rw [Str.createStatic, strlen, hs]; rfl, hs, _,
    validateLen_text (T := []) (x := some c) (rest := zstr t) rfl (by simp) (Or.inl rfl), rfl⟩

example : ((Str.createStatic (zstr [97, 98])) >>= Str.validateLen).mapOk (fun r => (r.1.mem, r.2)) = .ok ([some 0, some 98, some 0], 0) := by
  decide +kernel

/-- Example: "ab" has been written with its NUL into a fresh block, the rest of which is indeterminate. -/
example : (Str.validateLen ⟨0, 4, 1, 0, false, [some 97, some 98, some 0, none, none]⟩).mapOk (fun r => (r.1.mem, r.2)) =
    .ok ([some 97, some 98, some 0, none, none], 2) := by decide +kernel

example : (Str.validateLen ⟨0, 4, 1, 0, false, [some 97, some 98, some 0, some 99, some 100]⟩).mapOk (fun r => (r.1.mem, r.2)) =
    .ok ([some 97, some 98, some 0, some 99, some 100], 2) := by decide +kernel

end Vita
