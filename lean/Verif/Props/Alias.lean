import Verif.Model.Alias
import Verif.Props.StrEdit
/-!
# Properties C79, C80: arguments that point into the container itself
-/

namespace Vita
open Out Spec

seal wadd wsub wmul

theorem memmove_as_copy {m : Mem} {dst src n : Nat} (h : src + n ≤ m.length) :
    memmove m dst src n = memcpyIn m dst ((m.drop src).take n) n := by
  have hl : ((m.drop src).take n).length = n := by simp; omega
  unfold memmove memcpyIn
  rw [readN_ok h, readN_ok (by omega)]
  simp [List.take_take]

theorem elem_read {v : Arr} (h : v.WF) {i : Nat} (hi : i < v.len) :
    i * v.elsize + v.elsize ≤ v.len * v.elsize ∧ v.len * v.elsize ≤ v.mem.length ∧
    (v.mem.drop (i * v.elsize)).take v.elsize = v.elems[i]'(by simp [Arr.elems, hi]) := by
  have i0 : (i + 1) * v.elsize ≤ v.len * v.elsize := Nat.mul_le_mul_right _ (by omega)
  have i2 : v.len * v.elsize ≤ v.cap * v.elsize := Nat.mul_le_mul_right _ h.le
  rw [Nat.add_mul, Nat.one_mul] at i0
  refine ⟨i0, by rw [h.mem]; exact i2, ?_⟩
  have : v.elems[i]? = some ((v.mem.drop (i * v.elsize)).take v.elsize) := by
    rw [Arr.elems, chunks_getElem?, if_pos hi]
  rw [List.getElem?_eq_some_iff] at this
  obtain ⟨_, e⟩ := this
  exact e.symm

/-- An element pointer into a vector: `vt_vec_get(v, i)` is the address `i * elsize` bytes after the
start of the block. -/
def Arr.slot (v : Arr) (i : Nat) : Nat := i * v.elsize

/-- With a free slot, pushing one of the vector's own elements is pushing a copy of it. -/
theorem pushBackOwn_eq {E : Env} {v : Arr} (h : v.WF) {i : Nat} (hi : i < v.len) (hs : v.len < v.cap) :
    Vec.pushBackOwn E v (v.slot i) = Vec.pushBack E v (v.elems[i]'(by simp [Arr.elems, hi])) := by
  obtain ⟨a1, a2, a3⟩ := elem_read h hi
  have hlt := h.lenlt
  have e1 : wmul v.len v.elsize = v.len * v.elsize := wmul_eq (by omega)
  have hsp : hasSpace v ≠ 0 := by rw [hasSpace_eq h]; omega
  have hes := h.es
  unfold Vec.pushBackOwn Vec.pushBack Arr.slot
  rw [grow_room h hs]
  simp only [bind_ok, if_neg hsp, e1]
  have : memcpySelf E v.mem (v.len * v.elsize) (i * v.elsize) v.elsize =
      memcpyIn v.mem (v.len * v.elsize) (v.elems[i]'(by simp [Arr.elems, hi])) v.elsize := by
    unfold memcpySelf
    rw [if_neg (by omega), if_neg (by omega), memmove_as_copy (by omega), a3]
  rw [this]

/-- The bytes of slot `i` after the elements from `k` on were moved up by one slot. -/
theorem moved_slot {v : Arr} (h : v.WF) {i k : Nat} (hi : i < v.len) (hk : k < v.len) (hs : v.len < v.cap) :
    ∃ m, vtMemmove v.mem (wmul (wadd k 1) v.elsize) (wmul k v.elsize) (wmul (wsub v.len k) v.elsize) = .ok m ∧
      m.length = v.mem.length ∧
      (m.drop (i * v.elsize)).take v.elsize =
        v.elems[if i ≤ k then i else i - 1]'(by simp [Arr.elems]; split <;> omega) := by
  obtain ⟨a1, a2, a3⟩ := elem_read h hi
  have hlt := h.lenlt
  have hes := h.es
  have hm := h.mem
  have c1 : (v.len + 1) * v.elsize ≤ v.cap * v.elsize := Nat.mul_le_mul_right _ (by omega)
  have c2 : (k + 1) * v.elsize ≤ v.len * v.elsize := Nat.mul_le_mul_right _ (by omega)
  have c3 : k * v.elsize + (v.len - k) * v.elsize = v.len * v.elsize := by rw [← Nat.add_mul]; exact mulc (by omega)
  have c4 : 0 < (v.len - k) * v.elsize := Nat.mul_pos (by omega) hes
  have e1 : wadd k 1 = k + 1 := wadd_eq (by omega)
  have e2 : wsub v.len k = v.len - k := wsub_eq (by omega) (by omega)
  have e3 : wmul (k + 1) v.elsize = (k + 1) * v.elsize := wmul_eq (by omega)
  have e4 : wmul k v.elsize = k * v.elsize := wmul_eq (by omega)
  have e5 : wmul (v.len - k) v.elsize = (v.len - k) * v.elsize := wmul_eq (by omega)
  rw [Nat.add_mul, Nat.one_mul] at c1 c2 e3
  rw [e1, e2, e3, e4, e5]
  have hr : readN v.mem (k * v.elsize) ((v.len - k) * v.elsize) =
      .ok ((v.mem.drop (k * v.elsize)).take ((v.len - k) * v.elsize)) := readN_ok (by omega)
  have hl : ((v.mem.drop (k * v.elsize)).take ((v.len - k) * v.elsize)).length = (v.len - k) * v.elsize := by
    simp; omega
  refine ⟨v.mem.take (k * v.elsize + v.elsize) ++ (v.mem.drop (k * v.elsize)).take ((v.len - k) * v.elsize)
      ++ v.mem.drop (k * v.elsize + v.elsize + (v.len - k) * v.elsize), ?_, ?_, ?_⟩
  · unfold vtMemmove memmove
    rw [if_neg (by omega), hr, bind_ok, writeN_ok (by rw [hl]; omega), hl]
  · simp; omega
  · by_cases hik : i ≤ k
    · simp only [if_pos hik]
      rw [← a3]
      have c5 : i * v.elsize ≤ k * v.elsize := Nat.mul_le_mul_right _ hik
      rw [List.append_assoc, List.drop_append_of_le_length (by simp; omega),
        List.take_append_of_le_length (by simp; omega), List.drop_take, List.take_take]
      congr 1
      omega
    · simp only [if_neg hik]
      have hi1 : i - 1 < v.len := by omega
      obtain ⟨b1, _, b3⟩ := elem_read h hi1
      rw [← b3]
      have c5 : (k + 1) * v.elsize ≤ i * v.elsize := Nat.mul_le_mul_right _ (by omega)
      have c6 : (i - 1) * v.elsize + v.elsize = i * v.elsize := by
        have : (i - 1 + 1) * v.elsize = i * v.elsize := mulc (by omega)
        rwa [Nat.add_mul, Nat.one_mul] at this
      rw [Nat.add_mul, Nat.one_mul] at c5
      have hta : (v.mem.take (k * v.elsize + v.elsize)).length = k * v.elsize + v.elsize := by
        simp; omega
      rw [List.append_assoc, List.drop_append, hta,
        List.drop_eq_nil_of_le (by rw [hta]; omega), List.nil_append,
        List.drop_append_of_le_length (by rw [hl]; omega),
        List.take_append_of_le_length (by simp; omega), List.drop_take, List.take_take, List.drop_drop]
      congr 1
      · omega
      · congr 1; omega

/-- With a free slot, inserting own element `i` at `k` is inserting a copy of element `i` if `i ≤ k`, and of
element `i - 1` otherwise. -/
theorem insertOwn_eq {E : Env} {v : Arr} (h : v.WF) {i k : Nat} (hi : i < v.len) (hk : k < v.len)
    (hs : v.len < v.cap) (hI : i = k → E.isoMemcpy = false) :
    Vec.insertOwn E v (v.slot i) k =
      Vec.insert E v (v.elems[if i ≤ k then i else i - 1]'(by simp [Arr.elems]; split <;> omega)) k := by
  obtain ⟨m, q1, q2, q3⟩ := moved_slot h hi hk hs
  obtain ⟨a1, a2, a3⟩ := elem_read h hi
  have hlt := h.lenlt
  have hes := h.es
  have hm := h.mem
  have c2 : (k + 1) * v.elsize ≤ v.len * v.elsize := Nat.mul_le_mul_right _ (by omega)
  rw [Nat.add_mul, Nat.one_mul] at c2
  have e4 : wmul k v.elsize = k * v.elsize := wmul_eq (by omega)
  have hsp : hasSpace v ≠ 0 := by rw [hasSpace_eq h]; omega
  unfold Vec.insertOwn Vec.insert Arr.slot
  simp only [grow_room h hs, bind_ok, if_neg hsp, q1, hk, decide_true, dassert_true]
  have : memcpySelf E m (wmul k v.elsize) (i * v.elsize) v.elsize =
      memcpyIn m (wmul k v.elsize) (v.elems[if i ≤ k then i else i - 1]'(by simp [Arr.elems]; split <;> omega)) v.elsize := by
    unfold memcpySelf
    rw [e4, ← q3]
    rcases Nat.lt_trichotomy i k with hc | hc | hc
    · have c5 : (i + 1) * v.elsize ≤ k * v.elsize := Nat.mul_le_mul_right _ (by omega)
      rw [Nat.add_mul, Nat.one_mul] at c5
      rw [if_neg (by omega), if_neg (by omega), memmove_as_copy (by omega)]
    · subst hc
      rw [if_pos rfl, hI rfl, memmove_as_copy (by omega)]
      simp
    · have c5 : (k + 1) * v.elsize ≤ i * v.elsize := Nat.mul_le_mul_right _ (by omega)
      rw [Nat.add_mul, Nat.one_mul] at c5
      rw [if_neg (by omega), if_neg (by omega), memmove_as_copy (by omega)]
  rw [this]

theorem getElem_of_some {l : List α} {i : Nat} {x : α} (h : l[i]? = some x) : ∃ hi : i < l.length, l[i] = x :=
  List.getElem?_eq_some_iff.1 h

/-- **C79** (partial: with a free slot; at a full vector see `C79_push_full_ub`).  Pushing the vector's own
element `i` appends a copy of it. -/
theorem C79_push_own_partial (E : Env) (v : Arr) (h : v.WF) (i : Nat) (x : List Byte)
    (hx : v.elems[i]? = some x) (hs : v.len < v.cap) :
    ∃ v', Vec.pushBackOwn E v (v.slot i) = .ok v' ∧ v'.WF ∧ v'.elems = v.elems ++ [x] ∧ v'.cap = v.cap := by
  obtain ⟨hi, hx⟩ := getElem_of_some hx
  have hi' : i < v.len := by simpa [Arr.elems] using hi
  rw [pushBackOwn_eq h hi' hs, hx]
  have hlx : v.elsize = x.length := by
    obtain ⟨_, _, a3⟩ := elem_read h hi'
    obtain ⟨_, _, _, hall, _⟩ := h.split
    rw [← hx]; exact (hall _ (List.getElem_mem hi)).symm
  obtain ⟨h1, h2⟩ := pushBack_spec (E := E) h (val := x) (by omega)
  have hle : v.elems.length < v.cap := by simpa [Arr.elems] using hs
  cases hr : Vec.pushBack E v x with
  | ok v' =>
    rw [hr] at h1
    rw [withRoom_map (Or.inl ⟨hs, rfl⟩)] at h1
    simp only [mapOk, Arr.abs] at h1
    injection h1 with h1
    injection h1 with a b
    refine ⟨v', rfl, (h2 v' hr).1, ?_, b⟩
    rw [a, hlx, List.take_length]
  | exit w => rw [hr] at h1; simp [mapOk, withRoom, Arr.abs, hle] at h1
  | ub => rw [hr] at h1; simp [mapOk, withRoom, Arr.abs, hle] at h1
  | fuel => rw [hr] at h1; simp [mapOk, withRoom, Arr.abs, hle] at h1

/-- **C79** (the defect) If the vector is full, the push reallocates the block the argument points into
and then reads through the invalid pointer. -/
theorem C79_push_full_ub (E : Env) (v : Arr) (h : v.WF) (off : Nat) (hs : v.len = v.cap)
    (ha : E.allocOk (3 * v.cap * v.elsize) = true) : Vec.pushBackOwn E v off = .ub := by
  have hsp : hasSpace v = 0 := by rw [hasSpace_eq h]; omega
  rcases grow_cases (E := E) h with ⟨_, h2, _⟩ | ⟨v', g, _⟩
  · rw [ha] at h2; cases h2
  · unfold Vec.pushBackOwn
    rw [g, bind_ok, if_pos hsp]

/-- What an insertion of an own element does with a free slot. -/
theorem insertOwn_result (E : Env) (v : Arr) (h : v.WF) (i k : Nat) (hi : i < v.len) (hk : k < v.len)
    (hs : v.len < v.cap) (hI : i = k → E.isoMemcpy = false) (x : List Byte)
    (hx : v.elems[if i ≤ k then i else i - 1]? = some x) :
    ∃ v', Vec.insertOwn E v (v.slot i) k = .ok v' ∧ v'.WF ∧ v'.elems = insertAt v.elems k x ∧ v'.cap = v.cap := by
  obtain ⟨hj, hx⟩ := getElem_of_some hx
  rw [insertOwn_eq h hi hk hs hI, hx]
  have hlx : v.elsize = x.length := by
    obtain ⟨_, _, _, hall, _⟩ := h.split
    rw [← hx]; exact (hall _ (List.getElem_mem hj)).symm
  obtain ⟨h1, h2⟩ := insert_spec (E := E) h (val := x) (by omega) hk
  have hle : v.elems.length < v.cap := by simpa [Arr.elems] using hs
  cases hr : Vec.insert E v x k with
  | ok v' =>
    rw [hr] at h1
    rw [withRoom_map (Or.inl ⟨hs, rfl⟩)] at h1
    simp only [mapOk, Arr.abs] at h1
    injection h1 with h1
    injection h1 with a b
    refine ⟨v', rfl, (h2 v' hr).1, ?_, b⟩
    rw [a, hlx, List.take_length]
  | exit w => rw [hr] at h1; simp [mapOk, withRoom, Arr.abs, hle] at h1
  | ub => rw [hr] at h1; simp [mapOk, withRoom, Arr.abs, hle] at h1
  | fuel => rw [hr] at h1; simp [mapOk, withRoom, Arr.abs, hle] at h1

/-- **C79** (partial: with a free slot, the element not behind the position).  Inserting the vector's own
element `i` at a position `k ≥ i` inserts a copy of it. -/
theorem C79_insert_own_partial (E : Env) (hI : E.isoMemcpy = false) (v : Arr) (h : v.WF) (i k : Nat) (x : List Byte)
    (hx : v.elems[i]? = some x) (hik : i ≤ k) (hk : k < v.len) (hs : v.len < v.cap) :
    ∃ v', Vec.insertOwn E v (v.slot i) k = .ok v' ∧ v'.WF ∧ v'.elems = insertAt v.elems k x ∧ v'.cap = v.cap :=
  insertOwn_result E v h i k (by omega) hk hs (fun _ => hI) x (by rw [if_pos hik]; exact hx)

/-- **C79** (the defect) Inserting an own element in front of itself inserts a copy of its predecessor: the
shift has moved the element away from the address the argument points to. -/
theorem C79_insert_own_behind (E : Env) (v : Arr) (h : v.WF) (i k : Nat) (y : List Byte)
    (hy : v.elems[i - 1]? = some y) (hik : k < i) (hi : i < v.len) (hs : v.len < v.cap) :
    ∃ v', Vec.insertOwn E v (v.slot i) k = .ok v' ∧ v'.WF ∧ v'.elems = insertAt v.elems k y ∧ v'.cap = v.cap :=
  insertOwn_result E v h i k hi (by omega) hs (fun e => absurd e (by omega)) y (by rw [if_neg (by omega)]; exact hy)

/-- **C79** (the defect) Inserting an own element into a full vector is undefined. -/
theorem C79_insert_full_ub (E : Env) (v : Arr) (h : v.WF) (off k : Nat) (hk : k < v.len) (hs : v.len = v.cap)
    (ha : E.allocOk (3 * v.cap * v.elsize) = true) : Vec.insertOwn E v off k = .ub := by
  have hsp : hasSpace v = 0 := by rw [hasSpace_eq h]; omega
  rcases grow_cases (E := E) h with ⟨_, h2, _⟩ | ⟨v', g, w, g3, g4, g5, g6, _⟩
  · rw [ha] at h2; cases h2
  · obtain ⟨m, q, _⟩ := moved_slot w (i := k) (k := k) (by omega) (by omega) g6
    unfold Vec.insertOwn
    simp only [g, q, bind_ok, if_pos hsp, hk, decide_true, dassert_true]

/-- **C79** Moving to the front: for `i = 0` the first element is doubled; for `i > 0` the element before the
`i`-th is doubled instead. -/
theorem C79_push_front_own (E : Env) (hI : E.isoMemcpy = false) (v : Arr) (h : v.WF) (i : Nat) (y : List Byte)
    (hy : v.elems[i - 1]? = some y) (hi : i < v.len) (hs : v.len < v.cap) :
    ∃ v', Vec.pushFrontOwn E v (v.slot i) = .ok v' ∧ v'.WF ∧ v'.elems = y :: v.elems := by
  have h0 : v.len ≠ 0 := by omega
  obtain ⟨v', r, w, e, _⟩ := insertOwn_result E v h i 0 hi (by omega) hs (fun _ => hI) y (by
    split
    · have : i = 0 := by omega
      subst this; exact hy
    · exact hy)
  refine ⟨v', ?_, w, by simpa [insertAt] using e⟩
  unfold Vec.pushFrontOwn
  rw [if_pos h0, r]

/-- **C79** Overwriting element `k` with the own element `i` stores a copy of it, for all `i` and `k`. -/
theorem C79_set_own (E : Env) (hI : E.isoMemcpy = false) (v : Arr) (h : v.WF) (i k : Nat) (x : List Byte)
    (hx : v.elems[i]? = some x) (hk : k < v.len) :
    ∃ v', Vec.setOwn E v (v.slot i) k = .ok v' ∧ v'.WF ∧ v'.elems = v.elems.set k x ∧ v'.cap = v.cap := by
  obtain ⟨hi, hx⟩ := getElem_of_some hx
  have hi' : i < v.len := by simpa [Arr.elems] using hi
  obtain ⟨a1, a2, a3⟩ := elem_read h hi'
  obtain ⟨b1, b2, b3⟩ := elem_read h hk
  have hlt := h.lenlt
  have hes := h.es
  have hlx : v.elsize = x.length := by
    obtain ⟨_, _, _, hall, _⟩ := h.split
    rw [← hx]; exact (hall _ (List.getElem_mem hi)).symm
  obtain ⟨v', s1, s2, s3, s4⟩ := set_spec (E := E) h (val := x) (by omega) hk
  have e4 : wmul k v.elsize = k * v.elsize := wmul_eq (by omega)
  have : Vec.setOwn E v (v.slot i) k = Vec.set E v x k := by
    unfold Vec.setOwn Vec.set Vec.arrSet Arr.slot memcpySelf
    simp only [hk, decide_true, dassert_true, bind_ok, e4]
    rw [← hx, ← a3]
    rcases Nat.lt_trichotomy i k with hc | hc | hc
    · have c5 : (i + 1) * v.elsize ≤ k * v.elsize := Nat.mul_le_mul_right _ (by omega)
      rw [Nat.add_mul, Nat.one_mul] at c5
      rw [if_neg (by omega), if_neg (by omega), memmove_as_copy (by omega)]
    · subst hc
      rw [if_pos rfl, hI, memmove_as_copy (by omega)]
      simp
    · have c5 : (k + 1) * v.elsize ≤ i * v.elsize := Nat.mul_le_mul_right _ (by omega)
      rw [Nat.add_mul, Nat.one_mul] at c5
      rw [if_neg (by omega), if_neg (by omega), memmove_as_copy (by omega)]
  simp only [Arr.abs] at s2
  injection s2 with e1 e2
  refine ⟨v', by rw [this, s1], s3, ?_, e2⟩
  rw [e1, hlx, List.take_length]

/-- A vector of bytes `1 2 3` with one free slot: inserting its last element at the front doubles the 2. -/
example : ((Vec.insertOwn exE ⟨3, 4, 1, 0, false, [some 1, some 2, some 3, none]⟩ 2 0).mapOk Arr.elems,
    (Vec.pushBackOwn exE ⟨3, 4, 1, 0, false, [some 1, some 2, some 3, none]⟩ 1).mapOk Arr.elems,
    (Vec.pushBackOwn exE ⟨2, 2, 1, 0, false, [some 1, some 2]⟩ 1).mapOk Arr.elems)
    = (.ok [[some 2], [some 1], [some 2], [some 3]], .ok [[some 1], [some 2], [some 3], [some 2]], .ub) := by
  decide +kernel

/-! ### C80: strings -/

theorem own_text {v : Arr} {t : Text} (h : IsStr v t) {off : Nat} (ho : off ≤ t.length) :
    CStr (v.mem.drop off) (t.drop off) := h.cstr.drop ho

theorem own_slice {v : Arr} {t : Text} (h : IsStr v t) {off n : Nat} (ho : off + n ≤ t.length) :
    (v.mem.drop off).take n = ((t.drop off).take n).map some := by
  obtain ⟨rest, e, _⟩ := h.split
  rw [e, List.drop_append_of_le_length (by simp; omega), List.take_append_of_le_length (by simp; omega)]
  simp

theorem vtMemmove_as_copy {m : Mem} {dst src n : Nat} (h : src + n ≤ m.length) :
    vtMemmove m dst src n = vtMemcpyIn m dst ((m.drop src).take n) n := by
  unfold vtMemmove vtMemcpyIn
  split
  · rfl
  · exact memmove_as_copy h

theorem appendNOwn_eq {E : Env} {v : Arr} {t : Text} (h : IsStr v t) {off n : Nat} (ho : off + n ≤ t.length)
    (hc : t.length + n ≤ v.cap) :
    Str.appendNOwn E v off n = Str.appendN E v (((t.drop off).take n).map some) n := by
  have hlim := h.lim
  have hsp : ¬ hasSpace v < n := by rw [hasSpace_str h]; omega
  have hg : Str.grow E v n = .ok v := by unfold Str.grow; rw [if_neg hsp]
  have hle := h.le
  have hsz := h.size
  unfold Str.appendNOwn Str.appendN
  simp only [hg, bind_ok, if_neg hsp, h.es, wmul_one (show n < 2 ^ 64 by omega)]
  rw [vtMemmove_as_copy (by omega), own_slice h ho]

/-- **C80** (partial: with room).  Appending the text from position `off` of the string to the string itself. -/
theorem C80_append_own_partial (E : Env) (v : Arr) (t : Text) (h : IsStr v t) (off : Nat) (ho : off < t.length)
    (hc : t.length + (t.length - off) ≤ v.cap) :
    ∃ v', Str.appendOwn E v off = .ok v' ∧ IsStr v' (t ++ t.drop off) ∧ v'.cap = v.cap := by
  have hz := own_text h (Nat.le_of_lt ho)
  have hl : (t.drop off).length = t.length - off := by simp
  have hb : Begins ((t.drop off).map some) (t.drop off) := ⟨[], by simp⟩
  have hlim := h.lim
  have hy : 0 ∉ t.drop off := hz.nz
  obtain ⟨v', r, i, c, _⟩ := appendN_ok (E := E) h hy hb (by omega) (Or.inl (by omega)) (Or.inl (by omega))
  refine ⟨v', ?_, i, by rw [c]; omega⟩
  unfold Str.appendOwn strlen
  rw [hz.text, bind_ok]
  simp only [hl, bind_ok]
  rw [appendNOwn_eq h (by omega) hc, ← hl, List.take_length, r]

/-- **C80** (the defect) Without room the block is reallocated and the argument is invalid when it is read. -/
theorem C80_append_own_ub (E : Env) (v : Arr) (t : Text) (h : IsStr v t) (off : Nat) (ho : off < t.length)
    (hc : v.cap < t.length + (t.length - off)) (ha : E.allocOk (t.length + (t.length - off) + 1) = true) :
    Str.appendOwn E v off = .ub := by
  have hz := own_text h (Nat.le_of_lt ho)
  have hl : (t.drop off).length = t.length - off := by simp
  have hlim := h.lim
  have hle := h.le
  have hsp : hasSpace v < t.length - off := by rw [hasSpace_str h]; omega
  obtain ⟨w, g, _⟩ := str_grow_ok (E := E) h (n := t.length - off) (by omega) (Or.inr ha)
  have hd : dassert E (decide (t.length - off > 0)) = .ok () := by
    rw [decide_eq_true (by omega)]; exact dassert_true E
  unfold Str.appendOwn Str.appendNOwn strlen
  rw [hz.text, bind_ok]
  simp only [hl, bind_ok, g, if_pos hsp, hd]

/-- What `vt_str_insert` inserts when it is given the own text from `off` on: the bytes found there after the
tail was moved. -/
def shiftedText (t : Text) (off k : Nat) : Text :=
  ((t.take (k + (t.length - off)) ++ t.drop k).drop off).take (t.length - off)

theorem shiftedText_before {t : Text} {off k : Nat} (ho : off ≤ t.length) (hk : off ≤ k) :
    shiftedText t off k = t.drop off := by
  unfold shiftedText
  rw [List.take_of_length_le (show t.length ≤ k + (t.length - off) by omega), List.drop_append_of_le_length ho,
    List.take_append_of_le_length (by simp), List.take_of_length_le (by simp)]

/-- **C80** (actual behaviour, with room) Inserting the string's own text from `off` at any position `k`: the length is right, but what is inserted is read after the tail was moved
(`shiftedText_get` says which characters that gives). -/
theorem C80_insert_own_actual (E : Env) (v : Arr) (t : Text) (h : IsStr v t) (off k : Nat) (ho : off < t.length)
    (hk : k < t.length) (hc : t.length + (t.length - off) ≤ v.cap) :
    ∃ v', Str.insertOwn E v off k = .ok v' ∧ IsStr v' (t.take k ++ shiftedText t off k ++ t.drop k) ∧
      v'.cap = v.cap := by
  have hz := own_text h (Nat.le_of_lt ho)
  have hl : (t.drop off).length = t.length - off := by simp
  have hlim := h.lim
  have hle := h.le
  have hsz := h.size
  have hlen := h.len
  have hn0 := h.nz
  have hsp : ¬ hasSpace v < t.length - off := by rw [hasSpace_str h]; omega
  have hg : Str.grow E v (t.length - off) = .ok v := by unfold Str.grow; rw [if_neg hsp]
  have hsl : (shiftedText t off k).length = t.length - off := by
    unfold shiftedText; simp; omega
  have hs0 : 0 ∉ shiftedText t off k := by
    intro hm
    unfold shiftedText at hm
    have := List.mem_of_mem_drop (List.mem_of_mem_take hm)
    rcases List.mem_append.1 this with q | q
    · exact hn0 (List.mem_of_mem_take q)
    · exact hn0 (List.mem_of_mem_drop q)
  have hb : Begins ((shiftedText t off k).map some) (shiftedText t off k) := ⟨[], by simp⟩
  obtain ⟨m1, m2, m3, p1, p2, p3, p4⟩ := str_put_gap h hs0 (by omega) hb (i := k) (by omega)
  rw [hsl] at p1 p2 p3
  have hd : dassert E (decide (k < v.len)) = .ok () := by
    rw [decide_eq_true (by omega)]; exact dassert_true E
  have hsub : wsub v.len k = t.length - k := by rw [hlen]; exact wsub_eq (by omega) (by omega)
  have e1 : wadd k (t.length - off) = k + (t.length - off) := wadd_eq (by omega)
  have e2 : wadd v.len (t.length - off) = t.length + (t.length - off) := by rw [hlen]; exact wadd_eq (by omega)
  -- the bytes read by the second move
  have key : vtMemmove m1 k off (t.length - off) = .ok m2 := by
    have hm1 : m1 = v.mem.take (k + (t.length - off)) ++ (v.mem.drop k).take (t.length - k)
        ++ v.mem.drop (k + (t.length - off) + (t.length - k)) := by
      unfold vtMemmove memmove at p1
      have hl2 : ((v.mem.drop k).take (t.length - k)).length = t.length - k := by simp; omega
      rw [if_neg (by omega), readN_ok (by omega), bind_ok, writeN_ok (by rw [hl2]; omega), hl2] at p1
      injection p1 with p1
      exact p1.symm
    have hl1 : m1.length = v.mem.length := by rw [hm1]; simp; omega
    rw [vtMemmove_as_copy (by omega), ← p2]
    have hk1 : (v.mem.drop k).take (t.length - k) = (t.drop k).map some := by
      rw [own_slice h (by omega), List.take_of_length_le (by simp)]
    congr 1
    by_cases hcase : off ≤ k
    · rw [shiftedText_before (by omega) hcase, hm1, List.append_assoc, List.drop_append_of_le_length (by simp; omega),
        List.take_append_of_le_length (by simp; omega), List.drop_take, List.take_take]
      have := own_slice h (off := off) (n := t.length - off) (by omega)
      rw [List.take_of_length_le (by simp : (t.drop off).length ≤ t.length - off)] at this
      rw [← this]; congr 1; omega
    · have hk2 : v.mem.take (k + (t.length - off)) = (t.take (k + (t.length - off))).map some := by
        have := own_slice h (off := 0) (n := k + (t.length - off)) (by omega)
        simpa using this
      rw [hm1, hk1, hk2, ← List.map_append, List.drop_append_of_le_length (by simp; omega),
        List.take_append_of_le_length (by simp; omega), ← List.map_drop, ← List.map_take]
      rfl
  refine ⟨{ v with mem := m3, len := t.length + (t.length - off) }, ?_, ?_, rfl⟩
  · unfold Str.insertOwn strlen
    rw [hz.text, bind_ok]
    simp only [hl, bind_ok, hg, if_neg hsp, hd, h.es, hsub, e1, e2,
      wmul_one (show t.length - off < 2 ^ 64 by omega), wmul_one (show k < 2 ^ 64 by omega),
      wmul_one (show k + (t.length - off) < 2 ^ 64 by omega), wmul_one (show t.length - k < 2 ^ 64 by omega),
      p1, key, p3]
  · rw [← hsl]; exact p4

/-- **C80** (partial: with room, and the text taken from at most the insertion point).  Inserting the string's own
text from position `off` at a position `k ≥ off`. -/
theorem C80_insert_own_partial (E : Env) (v : Arr) (t : Text) (h : IsStr v t) (off k : Nat) (hok : off ≤ k)
    (hk : k < t.length) (hc : t.length + (t.length - off) ≤ v.cap) :
    ∃ v', Str.insertOwn E v off k = .ok v' ∧ IsStr v' (t.take k ++ t.drop off ++ t.drop k) ∧ v'.cap = v.cap := by
  obtain ⟨v', r, i, c⟩ := C80_insert_own_actual E v t h off k (by omega) hk hc
  rw [shiftedText_before (by omega) hok] at i
  exact ⟨v', r, i, c⟩

/-- Of the inserted characters, those that were in front of the moved tail are right; the others are the ones that stood as many places further to the front as
characters are inserted. -/
theorem shiftedText_get {t : Text} {off k j : Nat} (hk : k < off) (ho : off < t.length) (hj : j < t.length - off) :
    (shiftedText t off k)[j]? = if off + j < k + (t.length - off) then t[off + j]? else t[off + j - (t.length - off)]? := by
  unfold shiftedText
  rw [List.getElem?_take_of_lt hj, List.getElem?_drop]
  have hl : (t.take (k + (t.length - off))).length = k + (t.length - off) := by rw [List.length_take]; omega
  by_cases h : off + j < k + (t.length - off)
  · rw [if_pos h, List.getElem?_append_left (by omega), List.getElem?_take_of_lt h]
  · rw [if_neg h, List.getElem?_append_right (by omega), hl, List.getElem?_drop]
    congr 1
    omega

/-- **C80** (the defect, for every string with room) Inserting the own last character in front of an earlier position `k` inserts the one before it. -/
theorem C80_insert_last_own (E : Env) (v : Arr) (t : Text) (a b : UInt8) (h : IsStr v (t ++ [a, b])) (k : Nat) (hk : k ≤ t.length)
    (hc : t.length + 3 ≤ v.cap) :
    ∃ v', Str.insertOwn E v (t.length + 1) k = .ok v' ∧ IsStr v' ((t ++ [a, b]).take k ++ [a] ++ (t ++ [a, b]).drop k) := by
  have hlen : (t ++ [a, b]).length = t.length + 2 := by simp
  obtain ⟨v', e, i, -⟩ := C80_insert_own_actual E v _ h (t.length + 1) k (by omega) (by omega) (by omega)
  refine ⟨v', e, ?_⟩
  have hs : shiftedText (t ++ [a, b]) (t.length + 1) k = [a] := by
    have hl : (shiftedText (t ++ [a, b]) (t.length + 1) k).length = 1 := by
      unfold shiftedText
      simp only [List.length_take, List.length_drop, List.length_append, hlen]
      omega
    have h0 := shiftedText_get (t := t ++ [a, b]) (off := t.length + 1) (k := k) (j := 0) (by omega) (by omega) (by omega)
    rw [if_neg (by omega), hlen, show t.length + 1 + 0 - (t.length + 2 - (t.length + 1)) = t.length by omega,
      List.getElem?_append_right (Nat.le_refl _), Nat.sub_self] at h0
    obtain ⟨x, hx⟩ := List.length_eq_one_iff.1 hl
    rw [hx] at h0 ⊢
    simpa using h0
  rwa [hs] at i

example : IsStr (strObj ([97] ++ [98, 99]) 5) ([97] ++ [98, 99]) ∧ [(97 : UInt8)].length + 3 ≤ (strObj ([97] ++ [98, 99]) 5).cap :=
  ⟨isStr_strObj (by decide) (by decide), by decide⟩

/-- **C80** (the defect) Inserting the last letter of `abc` at the front gives `babc`. -/
theorem C80_insert_own_counterexample :
    (Str.insertOwn exE (strObj [97, 98, 99] 5) 2 0).mapOk Str.z = .ok (.ok [98, 97, 98, 99]) := by decide +kernel

/-- **C80** (the defect) Without room for the insertion, the call is undefined. -/
theorem C80_insert_own_ub (E : Env) (v : Arr) (t : Text) (h : IsStr v t) (off k : Nat) (ho : off < t.length)
    (hk : k < t.length) (hc : v.cap < t.length + (t.length - off))
    (ha : E.allocOk (t.length + (t.length - off) + 1) = true) : Str.insertOwn E v off k = .ub := by
  have hz := own_text h (Nat.le_of_lt ho)
  have hl : (t.drop off).length = t.length - off := by simp
  have hlim := h.lim
  have hle := h.le
  have hsp : hasSpace v < t.length - off := by rw [hasSpace_str h]; omega
  obtain ⟨w, g, w1, w2, _⟩ := str_grow_ok (E := E) h (n := t.length - off) (by omega) (Or.inr ha)
  have hd : dassert E (decide (k < v.len)) = .ok () := by
    rw [decide_eq_true (by rw [h.len]; omega)]; exact dassert_true E
  have hwl := w1.lim
  have hsub : wsub w.len k = t.length - k := by rw [w1.len]; exact wsub_eq (by omega) (by omega)
  have e1 : wadd k (t.length - off) = k + (t.length - off) := wadd_eq (by omega)
  obtain ⟨m1, m2, m3, p1, _⟩ := str_put_gap w1 (ys := t.drop off) hz.nz (by omega) hz.begins (i := k) (by omega)
  rw [hl] at p1
  unfold Str.insertOwn strlen
  rw [hz.text, bind_ok]
  simp only [hl, bind_ok, g, if_pos hsp, hd, hsub, w1.es, e1, wmul_one (show k < 2 ^ 64 by omega),
      wmul_one (show k + (t.length - off) < 2 ^ 64 by omega), wmul_one (show t.length - k < 2 ^ 64 by omega), p1]

/-- **C80** Setting the string to its own text from position `off` on drops the first `off` characters. -/
theorem C80_set_own (E : Env) (v : Arr) (t : Text) (h : IsStr v t) (off : Nat) (ho : off < t.length) :
    ∃ v', Str.setOwn E v off = .ok v' ∧ IsStr v' (t.drop off) ∧ v'.cap = v.cap := by
  have hz := own_text h (Nat.le_of_lt ho)
  have hl : (t.drop off).length = t.length - off := by simp
  have hb : Begins ((t.drop off).map some) (t.drop off) := ⟨[], by simp⟩
  have hlim := h.lim
  have hle := h.le
  have hsz := h.size
  obtain ⟨v', r, i, c, _⟩ := setN_ok (E := E) h hz.nz hb (Or.inl (by omega)) (by omega)
  refine ⟨v', ?_, i, c⟩
  rw [← r]
  unfold Str.setOwn Str.setNOwn Str.setN strlen
  rw [hz.text, bind_ok]
  simp only [hl, bind_ok, h.es, wmul_one (show t.length - off < 2 ^ 64 by omega)]
  rw [vtMemmove_as_copy (by omega), own_slice h (by omega), ← hl, List.take_length]

theorem set_getElem?_self {α : Type} {l : List α} {i : Nat} {x : α} (h : l[i]? = some x) : l.set i x = l := by
  obtain ⟨hi, e⟩ := getElem_of_some h
  rw [← e]; exact List.set_getElem_self hi

theorem set_at_length {α : Type} {a : List α} {k : Nat} (h : k = a.length) (x y : α) (c : List α) :
    (a ++ x :: c).set k y = a ++ y :: c := by
  subst h; simp

/-- The first half of `vt_str_set_at`: cutting the string at `k` only writes the terminator. -/
theorem cut_at {E : Env} {v : Arr} {t : Text} (h : IsStr v t) {k : Nat} (hk : k < t.length) :
    Str.remove E v k (t.length - k) = .ok { v with mem := v.mem.set k (some 0), len := k } ∧
    IsStr { v with mem := v.mem.set k (some 0), len := k } (t.take k) := by
  have hlim := h.lim
  have hle := h.le
  have hsz := h.size
  have hlen := h.len
  have e1 : wsub v.len k = t.length - k := by rw [hlen]; exact wsub_eq (by omega) (by omega)
  have e2 : wadd k (t.length - k) = t.length := by rw [wadd_eq (by omega)]; omega
  have e3 : wsub v.len t.length = 0 := by rw [hlen, wsub_eq (by omega) (by omega)]; omega
  have e4 : wsub v.len (t.length - k) = k := by rw [hlen, wsub_eq (by omega) (by omega)]; omega
  have hd1 : dassert E (decide (t.length - k > 0)) = .ok () := by
    rw [decide_eq_true (by omega)]; exact dassert_true E
  have hd2 : dassert E (decide (k < v.len)) = .ok () := by
    rw [decide_eq_true (by omega)]; exact dassert_true E
  have e5 : wmul 0 1 = 0 := wmul_one (by omega)
  constructor
  · simp [Str.remove, hd1, hd2, e1, e2, e3, e4, h.es, e5, vtMemmove, putc_ok (show k < v.mem.length by omega)]
  · obtain ⟨rest, e, hr⟩ := h.split
    have ht0 : t = t.take k ++ t[k] :: t.drop (k + 1) := by
      rw [← List.drop_eq_getElem_cons hk, List.take_append_drop]
    have ht : t.map some = (t.take k).map some ++ some (t[k]) :: (t.drop (k + 1)).map (some : UInt8 → Byte) := by
      conv_lhs => rw [ht0]
      simp only [List.map_append, List.map_cons]
    refine IsStr.mk' (rest := (t.drop (k + 1)).map some ++ some 0 :: rest) h.es h.view ?_ ?_ ?_ ?_ h.lim
    · show v.mem.set k (some 0) = _
      rw [e, ht, List.append_assoc]
      exact set_at_length (by simp; omega) _ _ _
    · intro hm; exact h.nz (List.mem_of_mem_take hm)
    · simp; omega
    · simp; omega

/-- **C80** Overwriting the tail from `k` with the own text from a later position `off` keeps the first `k`
characters and the text from `off` on. -/
theorem C80_set_at_own_partial (E : Env) (v : Arr) (t : Text) (h : IsStr v t) (off k : Nat) (hk : k < off)
    (ho : off < t.length) :
    ∃ v', Str.setAtOwn E v off k = .ok v' ∧ IsStr v' (t.take k ++ t.drop off) ∧ v'.cap = v.cap := by
  have hz := own_text h (Nat.le_of_lt ho)
  have hl : (t.drop off).length = t.length - off := by simp
  have hb : Begins ((t.drop off).map some) (t.drop off) := ⟨[], by simp⟩
  have hlim := h.lim
  have hle := h.le
  have hsz := h.size
  have hlen := h.len
  obtain ⟨c1, c2⟩ := cut_at (E := E) h (k := k) (by omega)
  have e1 : wsub v.len k = t.length - k := by rw [hlen]; exact wsub_eq (by omega) (by omega)
  have hd1 : dassert E (decide (t.length - off > 0)) = .ok () := by
    rw [decide_eq_true (by omega)]; exact dassert_true E
  have hd2 : dassert E (decide (k < v.len)) = .ok () := by
    rw [decide_eq_true (by omega)]; exact dassert_true E
  have hen : enforce (decide (t.length - off ≤ t.length - k)) = .ok () := by
    rw [decide_eq_true (by omega)]; exact enforce_true
  have htk : (t.take k).length = k := by simp; omega
  have hsp : ¬ hasSpace ({ v with mem := v.mem.set k (some 0), len := k } : Arr) < t.length - off := by
    rw [hasSpace_str c2, htk]; show ¬ (v.cap - k < _); omega
  obtain ⟨m1, m2, p1, p2, p3⟩ := str_put_end c2 hz.nz (by rw [htk, hl]; show _ ≤ v.cap; omega) hb
  rw [htk, hl] at p1 p2 p3
  have key : vtMemmove (v.mem.set k (some 0)) k off (t.length - off) = .ok m1 := by
    rw [vtMemmove_as_copy (by simp; omega), ← p1]
    have : ((v.mem.set k (some 0)).drop off).take (t.length - off) = (t.drop off).map some := by
      rw [List.drop_set, if_pos hk, own_slice h (by omega), List.take_of_length_le (by simp)]
    rw [this]
  have e2 : wadd k (t.length - off) = k + (t.length - off) := wadd_eq (by omega)
  refine ⟨_, ?_, p3, rfl⟩
  unfold Str.setAtOwn strlen
  rw [hz.text]
  simp only [bind_ok, hl, e1, hd2, hen, c1]
  unfold Str.appendNOwn Str.grow
  simp only [hd1, if_neg hsp, bind_ok]
  simp only [h.es, bind_ok, wmul_one (show k < 2 ^ 64 by omega),
    wmul_one (show t.length - off < 2 ^ 64 by omega), key, e2, p2]

/-- **C80** (the defect) Overwriting the tail from `k` with itself, which should change nothing, cuts the text
at `k`, while the length still counts all characters. -/
theorem C80_set_at_self (E : Env) (v : Arr) (t : Text) (h : IsStr v t) (k : Nat) (hk : k < t.length) :
    ∃ v', Str.setAtOwn E v k k = .ok v' ∧ Str.z v' = .ok (t.take k) ∧ Str.length v' = t.length := by
  have hz := own_text h (Nat.le_of_lt hk)
  have hl : (t.drop k).length = t.length - k := by simp
  have hlim := h.lim
  have hle := h.le
  have hsz := h.size
  have hlen := h.len
  obtain ⟨c1, c2⟩ := cut_at (E := E) h (k := k) (by omega)
  have e1 : wsub v.len k = t.length - k := by rw [hlen]; exact wsub_eq (by omega) (by omega)
  have hd1 : dassert E (decide (t.length - k > 0)) = .ok () := by
    rw [decide_eq_true (by omega)]; exact dassert_true E
  have hd2 : dassert E (decide (k < v.len)) = .ok () := by
    rw [decide_eq_true (by omega)]; exact dassert_true E
  have hen : enforce (decide (t.length - k ≤ t.length - k)) = .ok () := by
    rw [decide_eq_true (by omega)]; exact enforce_true
  have htk : (t.take k).length = k := by simp; omega
  have hsp : ¬ hasSpace ({ v with mem := v.mem.set k (some 0), len := k } : Arr) < t.length - k := by
    rw [hasSpace_str c2, htk]; show ¬ (v.cap - k < _); omega
  have key : vtMemmove (v.mem.set k (some 0)) k k (t.length - k) = .ok (v.mem.set k (some 0)) := by
    have hl2 : (((v.mem.set k (some 0)).drop k).take (t.length - k)).length = t.length - k := by simp; omega
    unfold vtMemmove memmove
    rw [if_neg (by omega), readN_ok (by simp; omega), bind_ok, writeN_ok (by rw [hl2]; simp; omega), hl2]
    congr 1
    rw [List.append_assoc, ← List.drop_drop, List.take_append_drop, List.take_append_drop]
  have e2 : wadd k (t.length - k) = t.length := by rw [wadd_eq (by omega)]; omega
  have hput : putc (v.mem.set k (some 0)) t.length 0 = .ok (v.mem.set k (some 0)) := by
    rw [putc_ok (by simp; omega)]
    congr 1
    obtain ⟨rest, e, _⟩ := h.split
    apply set_getElem?_self
    rw [List.getElem?_set_ne (by omega), e, List.getElem?_append_right (by simp)]
    simp
  refine ⟨{ v with mem := v.mem.set k (some 0), len := t.length }, ?_, c2.text, rfl⟩
  unfold Str.setAtOwn strlen
  rw [hz.text]
  simp only [bind_ok, hl, e1, hd2, hen, c1]
  unfold Str.appendNOwn Str.grow
  simp only [hd1, if_neg hsp, bind_ok]
  simp only [h.es, bind_ok, wmul_one (show k < 2 ^ 64 by omega),
    wmul_one (show t.length - k < 2 ^ 64 by omega), key, e2, hput]

/-- `abc` with five free places: appending its own tail, inserting its own head, keeping a tail, and the
self-overwrite that loses `bc`. -/
example : [(Str.appendOwn exE (strObj [97, 98, 99] 5) 1).mapOk Str.z,
    (Str.insertOwn exE (strObj [97, 98, 99] 5) 0 1).mapOk Str.z,
    (Str.setOwn exE (strObj [97, 98, 99] 5) 1).mapOk Str.z,
    (Str.setAtOwn exE (strObj [97, 98, 99] 5) 2 0).mapOk Str.z,
    (Str.setAtOwn exE (strObj [97, 98, 99] 5) 1 1).mapOk Str.z]
    = [.ok (.ok [97, 98, 99, 98, 99]), .ok (.ok [97, 97, 98, 99, 98, 99]), .ok (.ok [98, 99]), .ok (.ok [99]),
       .ok (.ok [97])] := by
  decide +kernel

end Vita
