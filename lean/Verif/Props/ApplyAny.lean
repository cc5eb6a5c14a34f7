import Verif.Model.ApplyAny
import Verif.Props.Iter
import Verif.Props.Plist
/-!
# C125: a callback may edit the container it is applied to
-/

namespace Vita
open Out Spec

namespace Spec

/-- The callback's state and the container after the calls for the indices 0, 1, …, `n - 1`. -/
def afterCalls (f : σ → Arr → Nat → σ × Arr) (s : σ × Arr) : Nat → σ × Arr
  | 0 => s
  | n + 1 => f (afterCalls f s n).1 (afterCalls f s n).2 n

/-- The callback's state and the list of pointers after the calls for `k` indices from `i`, each call with the pointer that is there by then. -/
def afterPtrCalls (F : σ → SeqState Ptr → Ptr → Nat → σ × SeqState Ptr) : (k i : Nat) → σ × SeqState Ptr → σ × SeqState Ptr
  | 0, _, s => s
  | k + 1, i, s => afterPtrCalls F k (i + 1) (F s.1 s.2 (s.2.elems.getD i 0) i)

end Spec

/-! ### Vectors -/

theorem vecApplyAny_from (f : σ → Arr → Nat → σ × Arr) (s : σ × Arr) {n c : Nat} (hn : (afterCalls f s n).2.len = n)
    (hb : ∀ m, m < n → (afterCalls f s m).2.len ≠ m) (hc : n ≤ c) :
    ∀ j i, i + j = n → Vec.applyAnyLoop f (c - i) i (afterCalls f s i) = .ok (afterCalls f s n) := by
  intro j
  induction j with
  | zero =>
    intro i hi
    obtain rfl : i = n := by omega
    cases c - i with
    | zero => rw [Vec.applyAnyLoop, if_pos hn.symm]
    | succ k => rw [Vec.applyAnyLoop, if_pos hn.symm]
  | succ j ih =>
    intro i hi
    obtain ⟨k, hk⟩ : ∃ k, c - i = k + 1 := ⟨c - i - 1, by omega⟩
    rw [hk, Vec.applyAnyLoop, if_neg (fun h => hb i (by omega) h.symm)]
    have := ih (i + 1) (by omega)
    rw [show c - (i + 1) = k by omega] at this
    exact this

/-- **C125, actual behaviour of vectors.** The callback is called for the indices 0, 1, 2, … until an index equals the length that the vector has by then. -/
theorem C125_vec_actual (f : σ → Arr → Nat → σ × Arr) (v : Arr) (st : σ) {n : Nat} (hn : (afterCalls f (st, v) n).2.len = n)
    (hb : ∀ m, m < n → (afterCalls f (st, v) m).2.len ≠ m) (hc : n ≤ v.cap) :
    Vec.applyAny f v st = .ok (afterCalls f (st, v) n) :=
  vecApplyAny_from f (st, v) hn hb hc n 0 (by omega)

/-- **C125, actual behaviour of vectors.** If that does not happen in the block, the loop leaves the block. -/
theorem C125_vec_leaves_block (f : σ → Arr → Nat → σ × Arr) (v : Arr) (st : σ) (hb : ∀ n, n ≤ v.cap → (afterCalls f (st, v) n).2.len ≠ n) :
    Vec.applyAny f v st = .ub := by
  have gen : ∀ k i, i + k = v.cap → Vec.applyAnyLoop f k i (afterCalls f (st, v) i) = .ub := by
    intro k
    induction k with
    | zero =>
      intro i hi
      rw [Vec.applyAnyLoop, if_neg (fun h => hb i (by omega) h.symm)]
    | succ k ih =>
      intro i hi
      rw [Vec.applyAnyLoop, if_neg (fun h => hb i (by omega) h.symm)]
      exact ih (i + 1) (by omega)
  exact gen v.cap 0 (by omega)

/-- **C125** (partial for vectors: the callback does not change the length).  The callback is called once for each index below the length, in order. -/
theorem C125_vec_partial (f : σ → Arr → Nat → σ × Arr) (v : Arr) (hv : v.len ≤ v.cap) (st : σ) (hf : ∀ st v i, (f st v i).2.len = v.len) :
    Vec.applyAny f v st = .ok (afterCalls f (st, v) v.len) := by
  have hl : ∀ n, (afterCalls f (st, v) n).2.len = v.len := by
    intro n
    induction n with
    | zero => rfl
    | succ n ih => rw [afterCalls, hf, ih]
  exact C125_vec_actual f v st (hl _) (fun m hm => by rw [hl]; omega) hv

/-- **C125 is false for vectors**: with a callback that pops, the first half of a vector of even length is visited; for odd lengths the loop misses its end. -/
theorem C125_vec_popping (v : Arr) (h : v.WF) :
    (∀ n, v.len = 2 * n → ∃ v', Vec.applyAny (fun (c : List Nat) v i => (c ++ [i], Vec.pop v)) v [] = .ok (List.range n, v') ∧ v'.len = n) ∧
    (∀ n, v.len = 2 * n + 1 → Vec.applyAny (fun (c : List Nat) v i => (c ++ [i], Vec.pop v)) v [] = .ub) := by
  have hlt : v.len < 2 ^ 64 := Nat.lt_trans h.lenlt.1 (by decide)
  have hl : ∀ n, (afterCalls (fun (c : List Nat) v i => (c ++ [i], Vec.pop v)) ([], v) n).2.len = v.len - n ∧
      (afterCalls (fun (c : List Nat) v i => (c ++ [i], Vec.pop v)) ([], v) n).1 = List.range n := by
    intro n
    induction n with
    | zero => exact ⟨rfl, rfl⟩
    | succ n ih =>
      obtain ⟨i1, i2⟩ := ih
      refine ⟨?_, ?_⟩
      · show (Vec.pop (afterCalls (fun (c : List Nat) v i => (c ++ [i], Vec.pop v)) ([], v) n).2).len = _
        generalize (afterCalls (fun (c : List Nat) v i => (c ++ [i], Vec.pop v)) ([], v) n).2 = u at i1
        unfold Vec.pop
        split
        · show wsub u.len 1 = _
          rw [wsub_eq (by omega) (by omega)]; omega
        · omega
      · show (afterCalls (fun (c : List Nat) v i => (c ++ [i], Vec.pop v)) ([], v) n).1 ++ [n] = _
        rw [i2, List.range_succ]
  have hle := h.le
  refine ⟨fun n hn => ⟨(afterCalls (fun (c : List Nat) v i => (c ++ [i], Vec.pop v)) ([], v) n).2, ?_, by rw [(hl n).1]; omega⟩, fun n hn => ?_⟩
  · rw [C125_vec_actual _ v [] (n := n) (by rw [(hl n).1]; omega) (fun m hm => by rw [(hl m).1]; omega) (by omega)]
    rw [← (hl n).2]
  · exact C125_vec_leaves_block _ v [] fun m hm => by rw [(hl m).1]; omega

/-! ### Strings -/

/-- **C125** for strings: whatever the callback does to the string, as long as the block does not become shorter than the text was, it is called once for each
index below the length that the string had, in order. -/
theorem C125_str (f : σ → Arr → Nat → σ × Arr) (v : Arr) (st : σ) (hf : ∀ n, n < v.len → v.len ≤ (afterCalls f (st, v) n).2.mem.length) :
    Str.applyAny f v st = .ok (afterCalls f (st, v) v.len) := by
  have gen : ∀ k i, i + k = v.len → Str.applyAnyLoop f k i (afterCalls f (st, v) i) = .ok (afterCalls f (st, v) v.len) := by
    intro k
    induction k with
    | zero => intro i hi; obtain rfl : i = v.len := by omega
              rfl
    | succ k ih =>
      intro i hi
      rw [Str.applyAnyLoop, if_pos (by have := hf i (by omega); omega)]
      exact ih (i + 1) (by omega)
  exact gen v.len 0 (by omega)

/-! ### Pointer lists -/

/-- **C125** for lists of pointers: a callback that edits the list in any way that keeps its length is called once for each index, in order, with the pointer
that is there when its turn comes. -/
theorem C125_plist (f : σ → Arr → Ptr → Nat → σ × Arr) (F : σ → SeqState Ptr → Ptr → Nat → σ × SeqState Ptr)
    (hf : ∀ st p s q i, PlHolds p s → PlHolds (f st p q i).2 (F st s q i).2 ∧ (f st p q i).1 = (F st s q i).1)
    (hF : ∀ st s q i, (F st s q i).2.elems.length = s.elems.length) {p : Arr} {s : SeqState Ptr} (h : PlHolds p s) (st : σ) :
    ∃ p', Plist.applyAny f p st = .ok ((afterPtrCalls F s.elems.length 0 (st, s)).1, p') ∧
      PlHolds p' (afterPtrCalls F s.elems.length 0 (st, s)).2 := by
  have gen : ∀ k i (p : Arr) (s : SeqState Ptr) (st : σ), PlHolds p s → i + k = s.elems.length →
      ∃ p', Plist.applyAnyLoop f k i (st, p) = .ok ((afterPtrCalls F k i (st, s)).1, p') ∧ PlHolds p' (afterPtrCalls F k i (st, s)).2 := by
    intro k
    induction k with
    | zero => intro i p s st h _; exact ⟨p, rfl, h⟩
    | succ k ih =>
      intro i p s st h hi
      have hil : i < s.elems.length := by omega
      have hq : p.elems[i]? = some (ptrBytes (s.elems.getD i 0)) := by
        rw [h.elems, List.getElem?_map, List.getElem?_eq_getElem hil, List.getD_eq_getElem?_getD, List.getElem?_eq_getElem hil]; rfl
      obtain ⟨g1, g2⟩ := hf st p s (s.elems.getD i 0) i h
      obtain ⟨p', e1, e2⟩ := ih (i + 1) (f st p (s.elems.getD i 0) i).2 (F st s (s.elems.getD i 0) i).2 (F st s (s.elems.getD i 0) i).1 g1
        (by rw [hF]; omega)
      refine ⟨p', ?_, e2⟩
      rw [Plist.applyAnyLoop, loadPtr_elem h.wf h.es hq, bind_ok]
      have e3 : f st p (s.elems.getD i 0) i = ((F st s (s.elems.getD i 0) i).1, (f st p (s.elems.getD i 0) i).2) := by rw [← g2]
      show Plist.applyAnyLoop f k (i + 1) (f st p (s.elems.getD i 0) i) = _
      rw [e3]
      exact e1
  rw [Plist.applyAny, h.len]
  exact gen _ 0 p s st h (by omega)

/-- **C125** for lists of pointers: a callback that removes from the end, clears the list, or otherwise changes only the length, is still called for all of the
pointers that were in the list. -/
theorem C125_plist_length (g : Arr → Arr) (hg : ∀ p, (g p).mem = p.mem) {p : Arr} {s : SeqState Ptr} (h : PlHolds p s) :
    ∃ p', Plist.applyAny (fun (c : List (Ptr × Nat)) p q i => (c ++ [(q, i)], g p)) p [] = .ok (s.elems.zipIdx, p') := by
  have gen : ∀ k i (u : Arr) (c : List (Ptr × Nat)), u.mem = p.mem → i + k = s.elems.length →
      ∃ p', Plist.applyAnyLoop (fun (c : List (Ptr × Nat)) p q i => (c ++ [(q, i)], g p)) k i (c, u) = .ok (c ++ (s.elems.drop i).zipIdx i, p') := by
    intro k
    induction k with
    | zero => intro i u c _ hi; exact ⟨u, by simp [Plist.applyAnyLoop, List.drop_eq_nil_of_le (show s.elems.length ≤ i by omega)]⟩
    | succ k ih =>
      intro i u c hu hi
      have hil : i < s.elems.length := by omega
      have hq : p.elems[i]? = some (ptrBytes s.elems[i]) := by
        rw [h.elems, List.getElem?_map, List.getElem?_eq_getElem hil]; rfl
      obtain ⟨p', e⟩ := ih (i + 1) (g u) (c ++ [(s.elems[i], i)]) (by rw [hg, hu]) (by omega)
      refine ⟨p', ?_⟩
      show (loadPtr u.mem i >>= _) = _
      rw [hu, loadPtr_elem h.wf h.es hq, bind_ok]
      show Plist.applyAnyLoop _ k (i + 1) (c ++ [(s.elems[i], i)], g u) = _
      rw [e, List.drop_eq_getElem_cons hil, List.zipIdx_cons]
      simp
  obtain ⟨p', e⟩ := gen s.elems.length 0 p [] rfl (by omega)
  refine ⟨p', ?_⟩
  rw [Plist.applyAny, h.len, e]
  simp

/-! ### Examples -/

/-- A callback that pops: of four elements two are visited, of three the loop runs out of the block. -/
example : (Vec.applyAny (fun (c : List Nat) v i => (c ++ [i], Vec.pop v)) ⟨4, 4, 1, 0, false, [some 1, some 2, some 3, some 4]⟩ []).mapOk (fun r => (r.1, r.2.len)) =
    .ok ([0, 1], 2) ∧
    Vec.applyAny (fun (c : List Nat) v i => (c ++ [i], Vec.pop v)) ⟨3, 4, 1, 0, false, [some 1, some 2, some 3, some 4]⟩ [] = .ub := by decide +kernel
/-- A callback that clears the next element. -/
example : (Vec.applyAny (fun (c : List Nat) v i => (c ++ [i], { v with mem := v.mem.set (i + 1) (some 0) })) ⟨3, 4, 1, 0, false, [some 1, some 2, some 3, some 4]⟩ []).mapOk
    (fun r => (r.1, r.2.mem)) = .ok ([0, 1, 2], [some 1, some 0, some 0, some 0]) := by decide +kernel
/-- A callback that clears the string at its first call. -/
example : (Str.applyAny (fun (c : List Nat) v i => (c ++ [i], { v with len := 0, mem := v.mem.set 0 (some 0) })) ⟨2, 2, 1, 0, false, [some 97, some 98, some 0]⟩ []).mapOk
    (fun r => (r.1, r.2.len)) = .ok ([0, 1], 0) := by decide +kernel
/-- A callback that empties a list of two pointers is called for both. -/
example : (Plist.applyAny (fun (c : List (Ptr × Nat)) p q i => (c ++ [(q, i)], { p with len := 0 }))
    ⟨2, 3, 8, 1, false, ptrBytes 7 ++ ptrBytes 8 ++ ptrBytes 0⟩ []).mapOk (fun r => (r.1, r.2.len)) = .ok ([(7, 0), (8, 1)], 0) := by decide +kernel
/-- A callback that exchanges the two members: the second call gets what was the first member. -/
example : afterPtrCalls (fun (c : List Ptr) s q _ => (c ++ [q], ⟨s.elems.reverse, s.cap⟩)) 2 0 ([], ⟨[7, 8], 3⟩) = ([7, 7], ⟨[7, 8], 3⟩) := rfl

end Vita
