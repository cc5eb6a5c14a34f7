import Verif.Spec.VecAbs
import Verif.Lemmas.Mem
/-! Functional equations of the vector model on well-formed vectors. -/

namespace Vita
open Out

seal wadd wsub wmul

theorem mulc {a b c : Nat} (h : a = b) : a * c = b * c := by rw [h]

/-- Decomposition of a well-formed vector's buffer. -/
theorem Arr.WF.split {v : Arr} (h : v.WF) :
    ∃ rest, v.mem = v.elems.flatten ++ rest ∧ rest.length = (v.cap - v.len) * v.elsize ∧
      (∀ x ∈ v.elems, x.length = v.elsize) ∧ v.elems.length = v.len := by
  have hl : v.len * v.elsize ≤ v.mem.length := by
    rw [h.mem]; exact Nat.mul_le_mul_right _ h.le
  refine ⟨v.mem.drop (v.len * v.elsize), ?_, ?_, ?_, ?_⟩
  · rw [Arr.elems, chunks_flatten, List.take_append_drop]
  · rw [List.length_drop, h.mem, Nat.sub_mul]
  · exact chunks_all _ _ _ hl
  · simp [Arr.elems]

/-- Re-assembling: a vector whose buffer is `l` followed by the right amount of rest. -/
theorem Arr.WF.mk' {v : Arr} {l : List (List Byte)} {rest : Mem} (hm : v.mem = l.flatten ++ rest)
    (hes : ∀ x ∈ l, x.length = v.elsize) (hl : v.len = l.length) (hle : v.len ≤ v.cap)
    (hr : rest.length = (v.cap - v.len) * v.elsize)
    (h0 : 0 < v.elsize) (h1 : 0 < v.cap) (h2 : v.cap * v.elsize < 2 ^ 56) :
    v.WF ∧ v.elems = l := by
  refine ⟨⟨hle, ?_, h0, h1, h2⟩, ?_⟩
  · rw [hm, List.length_append, flatten_length _ _ hes, hr, ← hl, ← Nat.add_mul]
    exact mulc (by omega)
  · rw [Arr.elems, hm, hl, chunks_of_flatten _ _ _ hes]

theorem Arr.WF.lenlt {v : Arr} (h : v.WF) : v.len < 2 ^ 56 ∧ v.cap < 2 ^ 56 ∧ v.len * v.elsize < 2 ^ 56 := by
  have h1 : v.cap * 1 ≤ v.cap * v.elsize := Nat.mul_le_mul_left _ h.es
  have h2 : v.len * v.elsize ≤ v.cap * v.elsize := Nat.mul_le_mul_right _ h.le
  have := h.lim; have := h.le
  omega

theorem hasSpace_eq {v : Arr} (h : v.WF) : hasSpace v = v.cap - v.len := by
  have := h.lenlt
  exact wsub_eq h.le (by omega)

/-- Growing a buffer at the end keeps the elements. -/
theorem realloc_ge {m : Mem} {n : Nat} (h : m.length ≤ n) :
    m.take n ++ List.replicate (n - m.length) none = m ++ List.replicate (n - m.length) none := by
  rw [List.take_of_length_le h]

theorem reserve_ok {E : Env} {v : Arr} (h : v.WF) {n : Nat} (hn : 0 < n)
    (hf : n * v.elsize < 2 ^ 63) (ha : E.allocOk ((v.cap + n) * v.elsize) = true) :
    ∃ v', Vec.reserve E v n = .ok v' ∧ v'.WF ∧ v'.elems = v.elems ∧ v'.cap = v.cap + n ∧
      v'.len = v.len ∧ v'.elsize = v.elsize ∧ v'.slider = v.slider ∧ v'.isView = v.isView := by
  have hb := E.lim _ ha
  obtain ⟨rest, hm, hr, hes, hl⟩ := h.split
  have hn1 : n * 1 ≤ n * v.elsize := Nat.mul_le_mul_left _ h.es
  have := h.lenlt
  have e1 : wadd v.cap n = v.cap + n := wadd_eq (by omega)
  have e2 : wmul (v.cap + n) v.elsize = (v.cap + n) * v.elsize := wmul_eq (by omega)
  have hp : 0 < (v.cap + n) * v.elsize := Nat.mul_pos (by omega) h.es
  have hge : v.mem.length ≤ (v.cap + n) * v.elsize := by
    rw [h.mem]; exact Nat.mul_le_mul_right _ (by omega)
  refine ⟨{ v with mem := v.mem.take ((v.cap + n) * v.elsize) ++ List.replicate ((v.cap + n) * v.elsize - v.mem.length) none, cap := v.cap + n }, ?_, ?_⟩
  · simp [Vec.reserve, hn, e1, e2, vtRealloc_ok hp ha]
  · have key := Arr.WF.mk' (v := { v with
        mem := v.mem.take ((v.cap + n) * v.elsize) ++ List.replicate ((v.cap + n) * v.elsize - v.mem.length) none,
        cap := v.cap + n })
      (l := v.elems) (rest := rest ++ List.replicate ((v.cap + n) * v.elsize - v.mem.length) none)
      (by
        show _ ++ _ = _
        rw [realloc_ge hge, ← List.append_assoc, ← hm])
      hes (by simp [hl]) (by have := h.le; simp; omega)
      (by
        simp only [List.length_append, List.length_replicate, hr, h.mem]
        have h3 := h.le
        rw [← Nat.sub_mul, ← Nat.add_mul]
        exact mulc (by omega))
      h.es (by simp; omega) hb
    exact ⟨key.1, key.2, rfl, rfl, rfl, rfl, rfl⟩

theorem reserve_fail {E : Env} {v : Arr} (h : v.WF) {n : Nat} (hn : 0 < n)
    (hf : n * v.elsize < 2 ^ 63) (ha : E.allocOk ((v.cap + n) * v.elsize) = false) :
    Vec.reserve E v n = .exit .alloc := by
  have hn1 : n * 1 ≤ n * v.elsize := Nat.mul_le_mul_left _ h.es
  have := h.lenlt
  have := h.lim
  have e1 : wadd v.cap n = v.cap + n := wadd_eq (by omega)
  have e2 : wmul (v.cap + n) v.elsize = (v.cap + n) * v.elsize :=
    wmul_eq (by rw [Nat.add_mul]; omega)
  have hp : 0 < (v.cap + n) * v.elsize := Nat.mul_pos (by omega) h.es
  simp [Vec.reserve, hn, e1, e2, vtRealloc_fail hp ha]

theorem grow_room {E : Env} {v : Arr} (h : v.WF) (hs : v.len < v.cap) : Vec.grow E v = .ok v := by
  have : v.cap - v.len ≠ 0 := by omega
  simp [Vec.grow, hasSpace_eq h, this]

theorem grow_full {E : Env} {v : Arr} (h : v.WF) (hs : ¬ v.len < v.cap) :
    Vec.grow E v = Vec.reserve E v (v.cap * 2) := by
  have := h.le; have := h.lenlt
  have e : v.cap - v.len = 0 := by omega
  have e2 : wmul v.cap growthRate = v.cap * 2 := wmul_eq (by simp only [growthRate]; omega)
  simp [Vec.grow, hasSpace_eq h, e, e2]

/-- `grow` either leaves a vector with room untouched, or triples a full one, or the request is
refused. -/
theorem grow_cases {E : Env} {v : Arr} (h : v.WF) :
    (¬ v.len < v.cap ∧ E.allocOk (3 * v.cap * v.elsize) = false ∧ Vec.grow E v = .exit .alloc) ∨
    (∃ v', Vec.grow E v = .ok v' ∧ v'.WF ∧ v'.elems = v.elems ∧ v'.len = v.len ∧
      v'.elsize = v.elsize ∧ v'.len < v'.cap ∧ v'.slider = v.slider ∧ v'.isView = v.isView ∧
      ((v.len < v.cap ∧ v'.cap = v.cap) ∨
       (¬ v.len < v.cap ∧ E.allocOk (3 * v.cap * v.elsize) = true ∧ v'.cap = 3 * v.cap))) := by
  by_cases hs : v.len < v.cap
  · right
    exact ⟨v, grow_room h hs, h, rfl, rfl, rfl, hs, rfl, rfl, Or.inl ⟨hs, rfl⟩⟩
  · have e : (v.cap + v.cap * 2) * v.elsize = 3 * v.cap * v.elsize := by exact mulc (by omega)
    have hf : v.cap * 2 * v.elsize < 2 ^ 63 := by
      have := h.lim
      have : v.cap * 2 * v.elsize = 2 * (v.cap * v.elsize) := by
        rw [Nat.mul_comm v.cap 2, Nat.mul_assoc]
      omega
    have hc := h.cap
    cases ha : E.allocOk (3 * v.cap * v.elsize) with
    | false =>
      left
      exact ⟨hs, rfl, by rw [grow_full h hs, reserve_fail h (by omega) hf (by rw [e, ha])]⟩
    | true =>
      right
      obtain ⟨v', h1, h2, h3, h4, h5, h6, h7, h8⟩ := reserve_ok (E := E) h (n := v.cap * 2) (by omega) hf (by rw [e, ha])
      refine ⟨v', by rw [grow_full h hs, h1], h2, h3, h5, h6, by have := h.le; omega, h7, h8, Or.inr ⟨hs, rfl, by omega⟩⟩

/-- Writing an element into the first free slot. -/
theorem write_slot {v : Arr} (h : v.WF) (hs : v.len < v.cap) {val : Mem} (hv : v.elsize ≤ val.length) :
    ∃ m, memcpyIn v.mem (wmul v.len v.elsize) val v.elsize = .ok m ∧
      ({ v with mem := m, len := wadd v.len 1 } : Arr).WF ∧
      ({ v with mem := m, len := wadd v.len 1 } : Arr).elems = v.elems ++ [val.take v.elsize] := by
  obtain ⟨rest, hm, hr, hes, hl⟩ := h.split
  have := h.lenlt
  have e : wmul v.len v.elsize = v.len * v.elsize := wmul_eq (by omega)
  have e2 : wadd v.len 1 = v.len + 1 := wadd_eq (by omega)
  have hsl : (v.len + 1) * v.elsize ≤ v.cap * v.elsize := Nat.mul_le_mul_right _ (by omega)
  rw [Nat.add_mul, Nat.one_mul] at hsl
  have hrl : v.elsize ≤ rest.length := by
    rw [hr, Nat.sub_mul]; omega
  have hvl : (val.take v.elsize).length = v.elsize := by simp; omega
  have hfl : v.elems.flatten.length = v.len * v.elsize := by rw [flatten_length _ _ hes, hl]
  refine ⟨v.elems.flatten ++ val.take v.elsize ++ rest.drop v.elsize, ?_, ?_⟩
  · rw [memcpyIn, readN_ok (by omega)]
    simp only [bind_ok, List.drop_zero]
    have : v.mem = v.elems.flatten ++ rest.take v.elsize ++ rest.drop v.elsize := by
      rw [List.append_assoc, List.take_append_drop]; exact hm
    rw [this, e, writeN_mid _ _ _ _ hfl.symm (by simp; omega)]
  · refine Arr.WF.mk' (l := v.elems ++ [val.take v.elsize]) (rest := rest.drop v.elsize) ?_ ?_ ?_ ?_ ?_ h.es h.cap h.lim
    · simp
    · intro x hx
      rcases List.mem_append.1 hx with hx | hx
      · exact hes x hx
      · simp at hx; subst hx; exact hvl
    · simp [e2, hl]
    · simp [e2]; omega
    · simp only [List.length_drop, hr, e2]
      rw [← Nat.sub_sub, Nat.sub_mul (v.cap - v.len) 1, Nat.one_mul]

theorem withRoom_map {E : Env} {v v' : Arr} (hcase : (v.len < v.cap ∧ v'.cap = v.cap) ∨
       (¬ v.len < v.cap ∧ E.allocOk (3 * v.cap * v.elsize) = true ∧ v'.cap = 3 * v.cap)) (l : List (List Byte)) :
    Spec.withRoom E v.elsize v.abs l = .ok ⟨l, v'.cap⟩ := by
  have hl : v.elems.length = v.len := by simp [Arr.elems]
  rcases hcase with ⟨h1, h2⟩ | ⟨h1, h2, h3⟩
  · simp [Spec.withRoom, Arr.abs, hl, h1, h2]
  · simp [Spec.withRoom, Arr.abs, hl, h1, h2, h3]

theorem withRoom_fail {E : Env} {v : Arr} (h1 : ¬ v.len < v.cap)
    (h2 : E.allocOk (3 * v.cap * v.elsize) = false) (l : List (List Byte)) :
    Spec.withRoom E v.elsize v.abs l = .exit .alloc := by
  have hl : v.elems.length = v.len := by simp [Arr.elems]
  simp [Spec.withRoom, Arr.abs, hl, h1, h2]

/-- Everything a call preserves besides the observable state. -/
def Arr.Same (v v' : Arr) : Prop := v'.elsize = v.elsize ∧ v'.slider = v.slider ∧ v'.isView = v.isView

theorem pushBack_spec {E : Env} {v : Arr} (h : v.WF) {val : Mem} (hv : v.elsize ≤ val.length) :
    (Vec.pushBack E v val).mapOk Arr.abs
        = Spec.withRoom E v.elsize v.abs (v.elems ++ [val.take v.elsize]) ∧
    ∀ v', Vec.pushBack E v val = .ok v' → v'.WF ∧ v.Same v' := by
  rcases grow_cases (E := E) h with ⟨h1, h2, h3⟩ | ⟨v1, h1, hw, he, hl, hes, hs, hsl, hiv, hc⟩
  · simp [Vec.pushBack, h3, withRoom_fail h1 h2]
  · obtain ⟨m, g1, g2, g3⟩ := write_slot hw hs (val := val) (by omega)
    constructor
    · simp only [Vec.pushBack, h1, bind_ok, g1, mapOk, withRoom_map hc]
      rw [Arr.abs, g3, he, hes]
    · intro v' hv'
      simp only [Vec.pushBack, h1, bind_ok, g1] at hv'
      cases hv'
      exact ⟨g2, hes, hsl, hiv⟩

/-- Inserting into a vector with room. -/
theorem insert_slot {v : Arr} (h : v.WF) (hs : v.len < v.cap) {val : Mem} (hv : v.elsize ≤ val.length)
    {i : Nat} (hi : i < v.len) :
    ∃ m0 m, vtMemmove v.mem (wmul (wadd i 1) v.elsize) (wmul i v.elsize)
            (wmul (wsub v.len i) v.elsize) = .ok m0 ∧
      memcpyIn m0 (wmul i v.elsize) val v.elsize = .ok m ∧
      ({ v with mem := m, len := wadd v.len 1 } : Arr).WF ∧
      ({ v with mem := m, len := wadd v.len 1 } : Arr).elems = Spec.insertAt v.elems i (val.take v.elsize) := by
  obtain ⟨rest, hm, hr, hes, hl⟩ := h.split
  have hlt := h.lenlt
  have hle := h.le
  have hpos := h.es
  have i1 : (i + 1) * v.elsize ≤ v.len * v.elsize := Nat.mul_le_mul_right _ (by omega)
  have i2 : (v.len - i) * v.elsize ≤ v.len * v.elsize := Nat.mul_le_mul_right _ (by omega)
  have i3 : (v.len + 1) * v.elsize ≤ v.cap * v.elsize := Nat.mul_le_mul_right _ (by omega)
  have i4 : 1 * v.elsize ≤ (v.len - i) * v.elsize := Nat.mul_le_mul_right _ (by omega)
  have i5 : i * v.elsize + (v.len - i) * v.elsize = v.len * v.elsize := by
    rw [← Nat.add_mul]; exact mulc (by omega)
  rw [Nat.add_mul] at i1 i3
  have e1 : wadd i 1 = i + 1 := wadd_eq (by omega)
  have e2 : wmul (i + 1) v.elsize = (i + 1) * v.elsize := wmul_eq (by rw [Nat.add_mul]; omega)
  have e3 : wmul i v.elsize = i * v.elsize := wmul_eq (by omega)
  have e4 : wsub v.len i = v.len - i := wsub_eq (by omega) (by omega)
  have e5 : wmul (v.len - i) v.elsize = (v.len - i) * v.elsize := wmul_eq (by omega)
  have e6 : wadd v.len 1 = v.len + 1 := wadd_eq (by omega)
  rw [e1, e2, e3, e4, e5, e6]
  -- the parts of the buffer
  have ha : ∀ x ∈ v.elems.take i, x.length = v.elsize := fun x hx => hes x (List.mem_of_mem_take hx)
  have hb : ∀ x ∈ v.elems.drop i, x.length = v.elsize := fun x hx => hes x (List.mem_of_mem_drop hx)
  have la : (v.elems.take i).flatten.length = i * v.elsize := by
    rw [flatten_length _ _ ha]; exact mulc (by simp [hl]; omega)
  have lb : (v.elems.drop i).flatten.length = (v.len - i) * v.elsize := by
    rw [flatten_length _ _ hb]; exact mulc (by simp [hl])
  have lrest : v.elsize ≤ rest.length := by rw [hr, Nat.sub_mul]; omega
  have hm1 : v.mem = (v.elems.take i).flatten ++ (v.elems.drop i).flatten ++ rest := by
    rw [← List.flatten_append, List.take_append_drop]; exact hm
  generalize (v.elems.take i).flatten = A at *
  generalize hB : (v.elems.drop i).flatten = B at *
  -- B ++ rest = first (elsize) ++ (len B) ++ remainder
  have hvl : (val.take v.elsize).length = v.elsize := by simp; omega
  have hm2 : v.mem = (A ++ (B ++ rest).take v.elsize) ++ ((B ++ rest).drop v.elsize).take B.length ++
      ((B ++ rest).drop v.elsize).drop B.length := by
    rw [List.append_assoc, List.append_assoc, List.take_append_drop, List.take_append_drop, hm1, List.append_assoc]
  have l1 : ((B ++ rest).take v.elsize).length = v.elsize := by simp; omega
  have l2 : (((B ++ rest).drop v.elsize).take B.length).length = B.length := by simp; omega
  have l3 : (((B ++ rest).drop v.elsize).drop B.length) = rest.drop v.elsize := by
    rw [List.drop_drop, Nat.add_comm, List.drop_length_add_append]
  refine ⟨A ++ (B ++ rest).take v.elsize ++ B ++ rest.drop v.elsize, A ++ val.take v.elsize ++ B ++ rest.drop v.elsize, ?_, ?_, ?_⟩
  · rw [vtMemmove, if_neg (by omega), memmove]
    conv => lhs; arg 1; rw [hm1]
    rw [readN_mid _ _ _ la.symm lb.symm]
    simp only [bind_ok]
    rw [hm2, writeN_mid _ _ _ _ (by rw [List.length_append, la, l1, Nat.add_mul, Nat.one_mul]) l2.symm, l3]
  · rw [memcpyIn, readN_ok (by omega)]
    simp only [bind_ok, List.drop_zero]
    rw [List.append_assoc (A ++ _), writeN_mid _ _ _ _ la.symm (by omega)]
    simp
  · refine Arr.WF.mk' (l := Spec.insertAt v.elems i (val.take v.elsize)) (rest := rest.drop v.elsize) ?_ ?_ ?_ ?_ ?_ h.es h.cap h.lim
    · have hA : A = (v.elems.take i).flatten := by
        have := hm1.symm.trans hm
        rw [List.append_assoc] at this
        have h2 : A = (v.elems.flatten ++ rest).take A.length := by rw [← this]; simp
        rw [h2, la, List.take_append_of_le_length, flatten_take _ _ hes]
        rw [flatten_length _ _ hes, hl]; omega
      rw [hA]
      simp [Spec.insertAt, ← hB, List.flatten_append]
    · intro x hx
      simp only [Spec.insertAt, List.mem_append, List.mem_cons] at hx
      rcases hx with hx | rfl | hx
      · exact ha x hx
      · exact hvl
      · exact hb x hx
    · simp [Spec.insertAt, hl]; omega
    · simp; omega
    · simp only [List.length_drop, hr]
      rw [← Nat.sub_sub, Nat.sub_mul (v.cap - v.len) 1, Nat.one_mul]

theorem insert_spec {E : Env} {v : Arr} (h : v.WF) {val : Mem} (hv : v.elsize ≤ val.length) {i : Nat}
    (hi : i < v.len) :
    (Vec.insert E v val i).mapOk Arr.abs
        = Spec.withRoom E v.elsize v.abs (Spec.insertAt v.elems i (val.take v.elsize)) ∧
    ∀ v', Vec.insert E v val i = .ok v' → v'.WF ∧ v.Same v' := by
  rcases grow_cases (E := E) h with ⟨h1, h2, h3⟩ | ⟨v1, h1, hw, he, hl, hes, hs, hsl, hiv, hc⟩
  · simp [Vec.insert, h3, withRoom_fail h1 h2, hi]
  · obtain ⟨m0, m, g0, g1, g2, g3⟩ := insert_slot hw hs (val := val) (by omega) (i := i) (by omega)
    constructor
    · simp only [Vec.insert, hi, decide_true, dassert_true, h1, bind_ok, g0, g1, mapOk, withRoom_map hc]
      rw [Arr.abs, g3, he, hes]
    · intro v' hv'
      simp only [Vec.insert, hi, decide_true, dassert_true, h1, bind_ok, g0, g1] at hv'
      cases hv'
      exact ⟨g2, hes, hsl, hiv⟩

theorem pushFront_spec {E : Env} {v : Arr} (h : v.WF) {val : Mem} (hv : v.elsize ≤ val.length) :
    (Vec.pushFront E v val).mapOk Arr.abs
        = Spec.withRoom E v.elsize v.abs (val.take v.elsize :: v.elems) ∧
    ∀ v', Vec.pushFront E v val = .ok v' → v'.WF ∧ v.Same v' := by
  by_cases h0 : v.len = 0
  · have he : v.elems = [] := by simp [Arr.elems, h0, chunks]
    have := pushBack_spec (E := E) h hv
    simp only [Vec.pushFront, h0, ne_eq, not_true_eq_false, if_false]
    rw [he] at this ⊢
    exact this
  · have := insert_spec (E := E) h hv (i := 0) (by omega)
    simp only [Vec.pushFront, ne_eq, h0, not_false_eq_true, if_true]
    simpa [Spec.insertAt] using this

theorem set_spec {E : Env} {v : Arr} (h : v.WF) {val : Mem} (hv : v.elsize ≤ val.length) {i : Nat}
    (hi : i < v.len) :
    ∃ v', Vec.set E v val i = .ok v' ∧ v'.abs = ⟨v.elems.set i (val.take v.elsize), v.cap⟩ ∧ v'.WF ∧
      v.Same v' := by
  obtain ⟨rest, hm, hr, hes, hl⟩ := h.split
  have hlt := h.lenlt
  have hle := h.le
  have i1 : (i + 1) * v.elsize ≤ v.len * v.elsize := Nat.mul_le_mul_right _ (by omega)
  rw [Nat.add_mul, Nat.one_mul] at i1
  have e3 : wmul i v.elsize = i * v.elsize := wmul_eq (by omega)
  have hvl : (val.take v.elsize).length = v.elsize := by simp; omega
  have ha : ∀ x ∈ v.elems.take i, x.length = v.elsize := fun x hx => hes x (List.mem_of_mem_take hx)
  have la : (v.elems.take i).flatten.length = i * v.elsize := by
    rw [flatten_length _ _ ha]; exact mulc (by simp [hl]; omega)
  have hsplit : v.elems = v.elems.take i ++ v.elems[i]'(by omega) :: v.elems.drop (i+1) := by
    rw [List.getElem_cons_drop, List.take_append_drop]
  have hset : v.elems.set i (val.take v.elsize) = v.elems.take i ++ val.take v.elsize :: v.elems.drop (i+1) := by
    rw [List.set_eq_take_append_cons_drop, if_pos (by omega)]
  have hm1 : v.mem = (v.elems.take i).flatten ++ v.elems[i]'(by omega) ++ ((v.elems.drop (i+1)).flatten ++ rest) := by
    have e := congrArg List.flatten hsplit
    rw [List.flatten_append, List.flatten_cons] at e
    rw [hm, e]; simp only [List.append_assoc]
  refine ⟨{ v with mem := (v.elems.take i).flatten ++ val.take v.elsize ++ ((v.elems.drop (i+1)).flatten ++ rest) }, ?_, ?_⟩
  · simp only [Vec.set, Vec.arrSet, hi, decide_true, dassert_true, bind_ok]
    rw [memcpyIn, readN_ok (by omega)]
    simp only [bind_ok, List.drop_zero]
    rw [hm1, e3, writeN_mid _ _ _ _ la.symm (by rw [hvl, hes _ (List.getElem_mem _)])]
    rfl
  · have key := Arr.WF.mk' (v := { v with mem := (v.elems.take i).flatten ++ val.take v.elsize ++ ((v.elems.drop (i+1)).flatten ++ rest) })
      (l := v.elems.set i (val.take v.elsize)) (rest := rest)
      (by show _ ++ _ ++ _ = _; rw [hset]; simp)
      (by
        intro x hx
        rw [hset] at hx
        simp only [List.mem_append, List.mem_cons] at hx
        rcases hx with hx | rfl | hx
        · exact ha x hx
        · exact hvl
        · exact hes x (List.mem_of_mem_drop hx))
      (by simp [hl]) h.le hr h.es h.cap h.lim
    refine ⟨?_, key.1, rfl, rfl, rfl⟩
    show Spec.SeqState.mk _ _ = _
    rw [key.2]

theorem removeStable_spec {E : Env} {v : Arr} (h : v.WF) {i : Nat} (hi : i < v.len) :
    ∃ v', Vec.remove E v i .stable = .ok v' ∧ v'.abs = ⟨Spec.removeAt v.elems i, v.cap⟩ ∧ v'.WF ∧
      v.Same v' := by
  obtain ⟨rest, hm, hr, hes, hl⟩ := h.split
  have hlt := h.lenlt
  have hle := h.le
  have hpos := h.es
  have i1 : (i + 1) * v.elsize ≤ v.len * v.elsize := Nat.mul_le_mul_right _ (by omega)
  have i5 : (i + 1) * v.elsize + (v.len - i - 1) * v.elsize = v.len * v.elsize := by
    rw [← Nat.add_mul]; exact mulc (by omega)
  have i6 : (i + 1) * v.elsize = i * v.elsize + v.elsize := by rw [Nat.add_mul, Nat.one_mul]
  have e1 : wadd i 1 = i + 1 := wadd_eq (by omega)
  have e2 : wmul (i + 1) v.elsize = (i + 1) * v.elsize := wmul_eq (by omega)
  have e3 : wmul i v.elsize = i * v.elsize := wmul_eq (by omega)
  have e4 : wsub v.len i = v.len - i := wsub_eq (by omega) (by omega)
  have e5 : wsub (v.len - i) 1 = v.len - i - 1 := wsub_eq (by omega) (by omega)
  have e6 : wmul (v.len - i - 1) v.elsize = (v.len - i - 1) * v.elsize := wmul_eq (by omega)
  have e7 : wsub v.len 1 = v.len - 1 := wsub_eq (by omega) (by omega)
  have ha : ∀ x ∈ v.elems.take i, x.length = v.elsize := fun x hx => hes x (List.mem_of_mem_take hx)
  have hb : ∀ x ∈ v.elems.drop (i+1), x.length = v.elsize := fun x hx => hes x (List.mem_of_mem_drop hx)
  have la : (v.elems.take i).flatten.length = i * v.elsize := by
    rw [flatten_length _ _ ha]; exact mulc (by simp [hl]; omega)
  have lb : (v.elems.drop (i+1)).flatten.length = (v.len - i - 1) * v.elsize := by
    rw [flatten_length _ _ hb]; exact mulc (by simp [hl]; omega)
  have lx : (v.elems[i]'(by omega)).length = v.elsize := hes _ (List.getElem_mem _)
  have hsplit : v.elems = v.elems.take i ++ v.elems[i]'(by omega) :: v.elems.drop (i+1) := by
    rw [List.getElem_cons_drop, List.take_append_drop]
  have hm1 : v.mem = (v.elems.take i).flatten ++ v.elems[i]'(by omega) ++ (v.elems.drop (i+1)).flatten ++ rest := by
    have e := congrArg List.flatten hsplit
    rw [List.flatten_append, List.flatten_cons] at e
    rw [hm, e]; simp only [List.append_assoc]
  obtain ⟨A, hA⟩ : ∃ A, A = (v.elems.take i).flatten := ⟨_, rfl⟩
  obtain ⟨B, hB⟩ : ∃ B, B = (v.elems.drop (i+1)).flatten := ⟨_, rfl⟩
  obtain ⟨X, hX⟩ : ∃ X, X = v.elems[i]'(by omega) := ⟨_, rfl⟩
  rw [← hA] at la hm1; rw [← hB] at lb hm1; rw [← hX] at lx hm1
  -- after the move: A ++ B ++ junk ++ rest with junk of elsize bytes
  have hm2 : v.mem = A ++ (X ++ B).take B.length ++ ((X ++ B).drop B.length ++ rest) := by
    rw [hm1]; simp only [List.append_assoc]
    rw [← List.append_assoc (List.take _ _), List.take_append_drop, List.append_assoc]
  have hjunk : ((X ++ B).drop B.length).length = v.elsize := by simp; omega
  have hmove : vtMemmove v.mem (i * v.elsize) ((i + 1) * v.elsize) ((v.len - i - 1) * v.elsize)
      = .ok (A ++ B ++ ((X ++ B).drop B.length ++ rest)) := by
    rw [vtMemmove]
    by_cases h0 : (v.len - i - 1) * v.elsize = 0
    · rw [if_pos h0]
      have : B = [] := List.eq_nil_of_length_eq_zero (by omega)
      rw [hm1, this]; simp
    · rw [if_neg h0, memmove]
      conv => lhs; arg 1; rw [hm1]
      rw [readN_mid (A ++ X) B rest (by rw [List.length_append]; omega) lb.symm]
      simp only [bind_ok]
      rw [hm2, writeN_mid _ _ _ _ la.symm (by rw [List.length_take, List.length_append]; omega)]
  refine ⟨{ v with mem := A ++ B ++ ((X ++ B).drop B.length ++ rest), len := v.len - 1 }, ?_, ?_⟩
  · simp only [Vec.remove, Vec.removeMem, hi, decide_true, dassert_true, bind_ok]
    rw [e1, e2, e3, e4, e5, e6, e7, hmove]
    simp only [bind_ok]
  · have key := Arr.WF.mk' (v := { v with mem := A ++ B ++ ((X ++ B).drop B.length ++ rest), len := v.len - 1 })
      (l := Spec.removeAt v.elems i) (rest := (X ++ B).drop B.length ++ rest)
      (by simp [Spec.removeAt, hA, hB])
      (by
        intro x hx
        simp only [Spec.removeAt, List.mem_append] at hx
        rcases hx with hx | hx
        · exact ha x hx
        · exact hb x hx)
      (by simp [Spec.removeAt, hl]; omega) (by simp; omega)
      (by
        simp only [List.length_append, hjunk, hr]
        have : v.cap - (v.len - 1) = 1 + (v.cap - v.len) := by omega
        rw [this, Nat.add_mul, Nat.one_mul]) h.es h.cap h.lim
    refine ⟨?_, key.1, rfl, rfl, rfl⟩
    show Spec.SeqState.mk _ _ = _
    rw [key.2]

theorem resize_spec {E : Env} {v : Arr} (h : v.WF) {n : Nat} (hn : 0 < n) (hf : n * v.elsize < 2 ^ 63)
    (ha : n = v.cap ∨ E.allocOk (n * v.elsize) = true) :
    ∃ v' extra, Vec.resize E v n = .ok v' ∧ v'.abs = ⟨v.elems.take n ++ extra, n⟩ ∧
      extra.length = n - v.elems.length ∧ v'.WF ∧ v.Same v' := by
  have hlt := h.lenlt
  have hle := h.le
  have hpos := h.es
  have hl : v.elems.length = v.len := by simp [Arr.elems]
  -- the elements of a longer prefix
  have pre : ∀ (m m' : Mem) (a b : Nat), a ≤ b → m.take (a * v.elsize) = m'.take (a * v.elsize) →
      chunks v.elsize a m = (chunks v.elsize b m').take a := by
    intro m m' a b hab hmm
    apply List.ext_getElem?
    intro k
    rw [List.getElem?_take, chunks_getElem?, chunks_getElem?]
    by_cases hk : k < a
    · simp only [hk, if_true, show k < b by omega]
      have hk1 : (k + 1) * v.elsize ≤ a * v.elsize := Nat.mul_le_mul_right _ hk
      rw [Nat.add_mul, Nat.one_mul] at hk1
      have e : ∀ m : Mem, (m.drop (k * v.elsize)).take v.elsize
          = ((m.take (a * v.elsize)).drop (k * v.elsize)).take v.elsize := by
        intro m
        rw [List.drop_take, List.take_take, Nat.min_eq_left (by omega)]
      rw [e m, e m', hmm]
    · simp [hk]
  by_cases hc : n = v.cap
  · subst hc
    have hwf : ({ v with len := v.cap } : Arr).WF := ⟨Nat.le_refl _, h.mem, h.es, h.cap, h.lim⟩
    have key : v.elems = (chunks v.elsize v.cap v.mem).take v.len := pre _ _ _ _ hle rfl
    refine ⟨{ v with len := v.cap }, (chunks v.elsize v.cap v.mem).drop v.len, ?_, ?_, ?_, hwf, rfl, rfl, rfl⟩
    · simp [Vec.resize, hn]
    · show Spec.SeqState.mk (chunks v.elsize v.cap v.mem) _ = _
      rw [List.take_of_length_le (by omega : v.elems.length ≤ v.cap)]
      rw [key, List.take_append_drop]
    · simp [hl]
  · have ha' : E.allocOk (n * v.elsize) = true := by rcases ha with h | h; exact absurd h hc; exact h
    have hb := E.lim _ ha'
    have e2 : wmul n v.elsize = n * v.elsize := wmul_eq (by omega)
    have hp : 0 < n * v.elsize := Nat.mul_pos hn h.es
    let m' := v.mem.take (n * v.elsize) ++ List.replicate (n * v.elsize - v.mem.length) (none : Byte)
    have hwf : ({ v with mem := m', len := n, cap := n } : Arr).WF :=
      ⟨Nat.le_refl _, vtRealloc_length v.mem, h.es, hn, hb⟩
    refine ⟨{ v with mem := m', len := n, cap := n }, (chunks v.elsize n m').drop (min v.len n), ?_, ?_, ?_, hwf, rfl, rfl, rfl⟩
    · simp [Vec.resize, hn, hc, e2, vtRealloc_ok hp ha', m']
    · show Spec.SeqState.mk (chunks v.elsize n m') _ = _
      have k1 : chunks v.elsize (min v.len n) v.mem = (chunks v.elsize n m').take (min v.len n) := by
        refine pre v.mem m' (min v.len n) n (by omega) ?_
        have q1 : min v.len n * v.elsize ≤ n * v.elsize := Nat.mul_le_mul_right _ (by omega)
        have q2 : min v.len n * v.elsize ≤ v.mem.length := by
          rw [h.mem]; exact Nat.mul_le_mul_right _ (by omega)
        show _ = (v.mem.take (n * v.elsize) ++ _).take _
        rw [List.take_append_of_le_length (by simp; omega), List.take_take, Nat.min_eq_left q1]
      have k2 : v.elems.take n = chunks v.elsize (min v.len n) v.mem := by
        have := pre v.mem v.mem (min v.len n) v.len (by omega) rfl
        rw [this, Arr.elems]
        by_cases hx : v.len ≤ n
        · rw [Nat.min_eq_left hx, List.take_of_length_le (by rw [chunks_length]; exact hx), List.take_of_length_le (by simp)]
        · rw [Nat.min_eq_right (by omega)]
      rw [k2, k1, List.take_append_drop]
    · simp [hl]; omega

theorem shrink_spec {E : Env} {v : Arr} (h : v.WF) (h0 : 0 < v.len) (hne : v.len ≠ v.cap)
    (ha : E.allocOk (v.len * v.elsize) = true) :
    ∃ v', Vec.shrink E v = .ok v' ∧ v'.abs = ⟨v.elems, v.len⟩ ∧ v'.WF ∧ v.Same v' := by
  obtain ⟨rest, hm, hr, hes, hl⟩ := h.split
  have hlt := h.lenlt
  have e2 : wmul v.len v.elsize = v.len * v.elsize := wmul_eq (by omega)
  have hp : 0 < v.len * v.elsize := Nat.mul_pos h0 h.es
  have hfl : v.elems.flatten.length = v.len * v.elsize := by rw [flatten_length _ _ hes, hl]
  refine ⟨{ v with mem := v.elems.flatten, cap := v.len }, ?_, ?_⟩
  · have q : v.len * v.elsize - v.mem.length = 0 := by
      have : v.len * v.elsize ≤ v.mem.length := by rw [h.mem]; exact Nat.mul_le_mul_right _ h.le
      omega
    have : v.mem.take (v.len * v.elsize) = v.elems.flatten := by
      rw [hm, ← hfl]; simp
    simp [Vec.shrink, hne, e2, vtRealloc_ok hp ha, q, this]
  · have key := Arr.WF.mk' (v := { v with mem := v.elems.flatten, cap := v.len }) (l := v.elems) (rest := [])
      (by simp) hes (by simp [hl]) (Nat.le_refl _) (by simp) h.es h0 (by simp; omega)
    refine ⟨?_, key.1, rfl, rfl, rfl⟩
    show Spec.SeqState.mk _ _ = _
    rw [key.2]

theorem shortened {v : Arr} (h : v.WF) {k : Nat} (hk : k ≤ v.len) :
    ({ v with len := k } : Arr).WF ∧ ({ v with len := k } : Arr).elems = v.elems.take k := by
  obtain ⟨rest, hm, hr, hes, hl⟩ := h.split
  refine Arr.WF.mk' (l := v.elems.take k) (rest := (v.elems.drop k).flatten ++ rest) ?_ ?_ ?_ ?_ ?_ h.es h.cap h.lim
  · show v.mem = _
    rw [← List.append_assoc, ← List.flatten_append, List.take_append_drop]; exact hm
  · exact fun x hx => hes x (List.mem_of_mem_take hx)
  · simp [hl]; omega
  · have := h.le; simp; omega
  · rw [List.length_append, hr, flatten_length _ _ (fun x hx => hes x (List.mem_of_mem_drop hx)), ← Nat.add_mul]
    have := h.le
    exact mulc (by simp [hl]; omega)

theorem pop_spec {v : Arr} (h : v.WF) :
    (Vec.pop v).abs = ⟨v.elems.dropLast, v.cap⟩ ∧ (Vec.pop v).WF ∧ v.Same (Vec.pop v) := by
  have hl : v.elems.length = v.len := by simp [Arr.elems]
  unfold Vec.pop
  split
  · have hlt := h.lenlt
    have e : wsub v.len 1 = v.len - 1 := wsub_eq (by omega) (by omega)
    rw [e]
    obtain ⟨h1, h2⟩ := shortened h (k := v.len - 1) (by omega)
    refine ⟨?_, h1, rfl, rfl, rfl⟩
    show Spec.SeqState.mk _ _ = _
    rw [h2, List.dropLast_eq_take, hl]
  · have : v.elems = [] := List.eq_nil_of_length_eq_zero (by omega)
    refine ⟨?_, h, rfl, rfl, rfl⟩
    show Spec.SeqState.mk _ _ = _
    rw [this]; rfl

theorem clear_spec {v : Arr} (h : v.WF) :
    (Vec.clear v).abs = ⟨[], v.cap⟩ ∧ (Vec.clear v).WF ∧ v.Same (Vec.clear v) := by
  obtain ⟨h1, h2⟩ := shortened h (k := 0) (by omega)
  exact ⟨by show Spec.SeqState.mk _ _ = _; rw [Vec.clear, h2]; rfl, h1, rfl, rfl, rfl⟩

end Vita
