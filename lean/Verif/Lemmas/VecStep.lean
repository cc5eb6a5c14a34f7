import Verif.Lemmas.Vec
/-! Fast removal, and one step of the vector model against the abstract step. -/

namespace Vita
open Out

seal wadd wsub wmul

theorem gswap_same {E : Env} (hE : E.isoMemcpy = false) {m : Mem} {a n : Nat} (hn : 0 < n)
    (ha : E.allocOk n = true) (hb : a + n ≤ m.length) : gswap E m a a n = .ok m := by
  have hn' : n ≠ 0 := by omega
  have l : ((m.drop a).take n).length = n := by simp; omega
  have q : m.take a ++ (m.drop a).take n ++ m.drop (a + n) = m := by
    rw [List.append_assoc, ← List.drop_drop, List.take_append_drop, List.take_append_drop]
  have w : writeN m a ((m.drop a).take n) = .ok m := by rw [writeN_ok (by rw [l]; exact hb), l, q]
  have hc : cassert E (n != 0) = .ok () := by simp [cassert, hn']
  simp [gswap, hc, vtCalloc_ok hn ha, readN_ok hb, hE, w]

theorem gswap_disj {E : Env} {A X B Y R : Mem} {a b n : Nat} (hn : 0 < n) (ha : E.allocOk n = true)
    (h1 : a = A.length) (h2 : b = A.length + n + B.length) (hx : X.length = n) (hy : Y.length = n) :
    gswap E (A ++ X ++ B ++ Y ++ R) a b n = .ok (A ++ Y ++ B ++ X ++ R) := by
  have hn' : n ≠ 0 := by omega
  have r1 : readN (A ++ X ++ B ++ Y ++ R) a n = .ok X := by
    rw [List.append_assoc (A ++ X), List.append_assoc (A ++ X), readN_mid _ _ _ h1 hx.symm]
  have r2 : readN (A ++ X ++ B ++ Y ++ R) b n = .ok Y := by
    rw [readN_mid _ _ _ (by simp; omega) hy.symm]
  have w1 : writeN (A ++ X ++ B ++ Y ++ R) a Y = .ok (A ++ Y ++ B ++ Y ++ R) := by
    rw [List.append_assoc (A ++ X), List.append_assoc (A ++ X), writeN_mid _ _ _ _ h1 (by omega)]
    simp only [List.append_assoc]
  have w2 : writeN (A ++ Y ++ B ++ Y ++ R) b X = .ok (A ++ Y ++ B ++ X ++ R) := by
    rw [writeN_mid _ _ _ _ (by simp; omega) (by omega)]
  have hne : a ≠ b := by omega
  have hov : ¬ (a < b + n ∧ b < a + n) := by omega
  have hc : cassert E (n != 0) = .ok () := by simp [cassert, hn']
  simp only [gswap, hc, vtCalloc_ok hn ha, r1, r2, hne, hov, if_false, w1, w2, bind_ok]

theorem gswap_refuse {E : Env} {m : Mem} {a b n : Nat} (hn : 0 < n) (ha : E.allocOk n = false) :
    gswap E m a b n = .exit .alloc := by
  have hn' : n ≠ 0 := by omega
  have hc : cassert E (n != 0) = .ok () := by simp [cassert, hn']
  simp [gswap, hc, vtCalloc_fail hn ha]

theorem swapRemove_last {l : List α} (h : l ≠ []) (i : Nat) (hi : i = l.length - 1) :
    Spec.swapRemove l i = l.dropLast := by
  have e : l = l.dropLast ++ [l.getLast h] := (List.dropLast_concat_getLast h).symm
  have : l.getLast? = some (l.getLast h) := List.getLast?_eq_some_getLast h
  rw [Spec.swapRemove, this]
  simp only
  subst hi
  congr 1
  apply List.ext_getElem?
  intro k
  rw [List.getElem?_set]
  split
  · rename_i hk
    subst hk
    have : l.length - 1 < l.length := by have := List.length_pos_iff.2 h; omega
    rw [if_pos this, List.getElem?_eq_getElem this, List.getLast_eq_getElem]
  · rfl

theorem swapRemove_inner (a b : List α) (x y : α) :
    Spec.swapRemove (a ++ [x] ++ b ++ [y]) a.length = a ++ [y] ++ b := by
  have : (a ++ [x] ++ b ++ [y]).getLast? = some y := List.getLast?_concat
  rw [Spec.swapRemove, this]
  simp only
  have : (a ++ [x] ++ b ++ [y]).set a.length y = a ++ [y] ++ b ++ [y] := by
    simp [List.append_assoc, List.set_append]
  rw [this, List.dropLast_concat]

theorem removeFast_spec {E : Env} (hE : E.isoMemcpy = false) {v : Arr} (h : v.WF) {i : Nat} (hi : i < v.len)
    (ha : E.allocOk v.elsize = true) :
    ∃ v', Vec.remove E v i .fast = .ok v' ∧ v'.abs = ⟨Spec.swapRemove v.elems i, v.cap⟩ ∧ v'.WF ∧
      v.Same v' := by
  obtain ⟨rest, hm, hr, hes, hl⟩ := h.split
  have hlt := h.lenlt
  have hle := h.le
  have hpos := h.es
  have i0 : (i + 1) * v.elsize ≤ v.len * v.elsize := Nat.mul_le_mul_right _ (by omega)
  rw [Nat.add_mul, Nat.one_mul] at i0
  have i1 : (v.len - 1 + 1) * v.elsize = v.len * v.elsize := mulc (by omega)
  rw [Nat.add_mul, Nat.one_mul] at i1
  have e3 : wmul i v.elsize = i * v.elsize := wmul_eq (by omega)
  have e7 : wsub v.len 1 = v.len - 1 := wsub_eq (by omega) (by omega)
  have e8 : wmul (v.len - 1) v.elsize = (v.len - 1) * v.elsize := wmul_eq (by omega)
  have hml : v.mem.length = v.cap * v.elsize := h.mem
  have i2 : v.len * v.elsize ≤ v.cap * v.elsize := Nat.mul_le_mul_right _ hle
  have hne : v.elems ≠ [] := by
    intro hc; rw [hc] at hl; simp at hl; omega
  by_cases hlast : i = v.len - 1
  · obtain ⟨w1, w2⟩ := shortened h (k := v.len - 1) (by omega)
    refine ⟨{ v with len := v.len - 1 }, ?_, ?_, w1, rfl, rfl, rfl⟩
    · simp only [Vec.remove, Vec.removeMem, hi, decide_true, dassert_true, bind_ok]
      rw [e7, e8, hlast, e8, gswap_same hE hpos ha (by omega)]
      simp only [bind_ok]
    · show Spec.SeqState.mk _ _ = _
      rw [w2, swapRemove_last hne i (by omega), List.dropLast_eq_take, hl]
  · -- l = a ++ [x] ++ b ++ [y]
    obtain ⟨a, x, b, y, hsplit, hal⟩ : ∃ a x b y, v.elems = a ++ [x] ++ b ++ [y] ∧ a.length = i := by
      refine ⟨v.elems.take i, v.elems[i]'(by omega), (v.elems.dropLast).drop (i+1), v.elems.getLast hne, ?_, by simp; omega⟩
      have e : v.elems = v.elems.dropLast ++ [v.elems.getLast hne] := (List.dropLast_concat_getLast hne).symm
      have hd : i < v.elems.dropLast.length := by simp; omega
      have e2 : v.elems.dropLast = v.elems.dropLast.take i ++ v.elems.dropLast[i] :: v.elems.dropLast.drop (i+1) := by
        rw [List.getElem_cons_drop, List.take_append_drop]
      have t1 : v.elems.dropLast.take i = v.elems.take i := by
        rw [List.dropLast_eq_take, List.take_take, Nat.min_eq_left (by omega)]
      have t2 : v.elems.dropLast[i] = v.elems[i]'(by omega) := by simp
      rw [t1, t2] at e2
      rw [e2] at e
      rw [List.append_assoc (v.elems.take i)]
      exact e
    have hx : x.length = v.elsize := hes x (by rw [hsplit]; simp)
    have hy : y.length = v.elsize := hes y (by rw [hsplit]; simp)
    have ha' : ∀ z ∈ a, z.length = v.elsize := fun z hz => hes z (by rw [hsplit]; simp [hz])
    have hb' : ∀ z ∈ b, z.length = v.elsize := fun z hz => hes z (by rw [hsplit]; simp [hz])
    have hbl : i + 2 + b.length = v.len := by
      rw [← hl, hsplit]; simp; omega
    have fa : a.flatten.length = i * v.elsize := by rw [flatten_length _ _ ha', hal]
    have fb : b.flatten.length = b.length * v.elsize := flatten_length _ _ hb'
    have pos2 : (v.len - 1) * v.elsize = i * v.elsize + v.elsize + b.length * v.elsize := by
      have : v.len - 1 = i + 1 + b.length := by omega
      rw [this, Nat.add_mul, Nat.add_mul, Nat.one_mul]
    have hm1 : v.mem = a.flatten ++ x ++ b.flatten ++ y ++ rest := by
      rw [hm, hsplit]; simp only [List.flatten_append, List.flatten_singleton]
    have hg : gswap E v.mem (i * v.elsize) ((v.len - 1) * v.elsize) v.elsize
        = .ok (a.flatten ++ y ++ b.flatten ++ x ++ rest) := by
      rw [hm1]
      exact gswap_disj hpos ha fa.symm (by rw [fa, fb]; exact pos2) hx hy
    refine ⟨{ v with mem := a.flatten ++ y ++ b.flatten ++ x ++ rest, len := v.len - 1 }, ?_, ?_⟩
    · simp only [Vec.remove, Vec.removeMem, hi, decide_true, dassert_true, bind_ok]
      rw [e7, e8, e3, hg]
      simp only [bind_ok]
    · have hsr : Spec.swapRemove v.elems i = a ++ [y] ++ b := by
        rw [hsplit, ← hal, swapRemove_inner]
      have key := Arr.WF.mk' (v := { v with mem := a.flatten ++ y ++ b.flatten ++ x ++ rest, len := v.len - 1 })
        (l := Spec.swapRemove v.elems i) (rest := x ++ rest)
        (by rw [hsr]; simp)
        (by
          intro z hz
          rw [hsr] at hz
          simp only [List.mem_append, List.mem_singleton] at hz
          rcases hz with (hz | rfl) | hz
          · exact ha' z hz
          · exact hy
          · exact hb' z hz)
        (by rw [hsr]; simp; omega) (by simp; omega)
        (by
          simp only [List.length_append, hx, hr]
          have : v.cap - (v.len - 1) = 1 + (v.cap - v.len) := by omega
          rw [this, Nat.add_mul, Nat.one_mul]) h.es h.cap h.lim
      refine ⟨?_, key.1, rfl, rfl, rfl⟩
      show Spec.SeqState.mk _ _ = _
      rw [key.2]

theorem withRoom_ne {E : Env} {es : Nat} {s : Spec.SeqState α} {l : List α} :
    Spec.withRoom E es s l ≠ .ub ∧ Spec.withRoom E es s l ≠ .fuel := by
  unfold Spec.withRoom
  constructor <;> (split; · simp) <;> split <;> simp

/-- One call on a well-formed vector in a debug build has a specified outcome and keeps the vector
well formed. -/
theorem vecStep {E : Env} (hD : E.debug = true) (hI : E.isoMemcpy = false) {v : Arr} (h : v.WF)
    (c : VecCall) (hc : c.Fits v.elsize) :
    Spec.SeqStep E v.elsize v.elsize v.abs (c.toOp v.elsize) ((c.run E v).mapOk Arr.abs) ∧
    (∀ v', c.run E v = .ok v' → v'.WF ∧ v.Same v') ∧ (c.run E v).Safe := by
  have hl : v.elems.length = v.len := by simp [Arr.elems]
  -- safety follows from the abstract outcome being defined
  have safe_of : ∀ o : Out Arr, (o.mapOk Arr.abs ≠ .ub ∧ o.mapOk Arr.abs ≠ .fuel) → o.Safe := by
    intro o ho
    cases o <;> simp_all [Out.Safe]
  cases c with
  | pushBack val =>
    obtain ⟨h1, h2⟩ := pushBack_spec (E := E) h (val := val) hc
    exact ⟨h1, h2, safe_of _ (by simp only [VecCall.run]; rw [h1]; exact withRoom_ne)⟩
  | pushFront val =>
    obtain ⟨h1, h2⟩ := pushFront_spec (E := E) h (val := val) hc
    exact ⟨h1, h2, safe_of _ (by simp only [VecCall.run]; rw [h1]; exact withRoom_ne)⟩
  | insert val i =>
    by_cases hi : i < v.len
    · obtain ⟨h1, h2⟩ := insert_spec (E := E) h (val := val) hc hi
      refine ⟨?_, h2, safe_of _ (by simp only [VecCall.run]; rw [h1]; exact withRoom_ne)⟩
      simp only [Spec.SeqStep, VecCall.toOp, Arr.abs, hl, hi, if_true]
      exact h1
    · have : VecCall.run E v (.insert val i) = .exit .dbgAssert := by
        simp [VecCall.run, Vec.insert, hi, dassert_false hD]
      rw [this]
      simp [Spec.SeqStep, VecCall.toOp, Arr.abs, hl, hi, Out.Safe]
  | set val i =>
    by_cases hi : i < v.len
    · obtain ⟨v', h1, h2, h3⟩ := set_spec (E := E) h (val := val) hc hi
      have : VecCall.run E v (.set val i) = .ok v' := h1
      rw [this]
      refine ⟨?_, by intro v'' hv; cases hv; exact h3, by simp [Out.Safe]⟩
      simp [Spec.SeqStep, VecCall.toOp, Arr.abs, hl, hi]
      simpa [Arr.abs] using h2
    · have : VecCall.run E v (.set val i) = .exit .dbgAssert := by
        simp [VecCall.run, Vec.set, hi, dassert_false hD]
      rw [this]
      simp [Spec.SeqStep, VecCall.toOp, Arr.abs, hl, hi, Out.Safe]
  | removeStable i =>
    by_cases hi : i < v.len
    · obtain ⟨v', h1, h2, h3⟩ := removeStable_spec (E := E) h hi
      have : VecCall.run E v (.removeStable i) = .ok v' := h1
      rw [this]
      refine ⟨?_, by intro v'' hv; cases hv; exact h3, by simp [Out.Safe]⟩
      simp [Spec.SeqStep, VecCall.toOp, Arr.abs, hl, hi]
      simpa [Arr.abs] using h2
    · have : VecCall.run E v (.removeStable i) = .exit .dbgAssert := by
        simp [VecCall.run, Vec.remove, hi, dassert_false hD]
      rw [this]
      simp [Spec.SeqStep, VecCall.toOp, Arr.abs, hl, hi, Out.Safe]
  | removeFast i =>
    by_cases hi : i < v.len
    · have hp := h.es
      have hp' : v.elsize ≠ 0 := by omega
      cases ha : E.allocOk v.elsize with
      | true =>
        obtain ⟨v', h1, h2, h3⟩ := removeFast_spec hI h hi ha
        have : VecCall.run E v (.removeFast i) = .ok v' := h1
        rw [this]
        refine ⟨?_, by intro v'' hv; cases hv; exact h3, by simp [Out.Safe]⟩
        simp [Spec.SeqStep, VecCall.toOp, Arr.abs, hl, hi, ha]
        simpa [Arr.abs] using h2
      | false =>
        have : VecCall.run E v (.removeFast i) = .exit .alloc := by
          simp [VecCall.run, Vec.remove, Vec.removeMem, hi, gswap_refuse hp ha]
        rw [this]
        simp [Spec.SeqStep, VecCall.toOp, Arr.abs, hl, hi, ha, hp', Out.Safe]
    · have : VecCall.run E v (.removeFast i) = .exit .dbgAssert := by
        simp [VecCall.run, Vec.remove, hi, dassert_false hD]
      rw [this]
      simp [Spec.SeqStep, VecCall.toOp, Arr.abs, hl, hi, Out.Safe]
  | pop =>
    obtain ⟨h1, h2⟩ := pop_spec h
    refine ⟨?_, by intro v'' hv; cases hv; exact h2, by simp [VecCall.run, Out.Safe]⟩
    simp only [Spec.SeqStep, VecCall.toOp, VecCall.run, mapOk]
    rw [h1]; rfl
  | clear =>
    obtain ⟨h1, h2⟩ := clear_spec h
    refine ⟨?_, by intro v'' hv; cases hv; exact h2, by simp [VecCall.run, Out.Safe]⟩
    simp only [Spec.SeqStep, VecCall.toOp, VecCall.run, mapOk]
    rw [h1]; rfl
  | reserve n =>
    by_cases hn : n = 0
    · subst hn
      have : VecCall.run E v (.reserve 0) = .exit .dbgAssert := by
        simp [VecCall.run, Vec.reserve, dassert_false hD]
      rw [this]
      simp [Spec.SeqStep, VecCall.toOp, Out.Safe]
    · cases ha : E.allocOk ((v.cap + n) * v.elsize) with
      | true =>
        obtain ⟨v', h1, h2, h3, h4, h5, h6, h7, h8⟩ := reserve_ok (E := E) h (by omega : 0 < n) hc ha
        have : VecCall.run E v (.reserve n) = .ok v' := h1
        rw [this]
        refine ⟨?_, by intro v'' hv; cases hv; exact ⟨h2, h6, h7, h8⟩, by simp [Out.Safe]⟩
        simp [Spec.SeqStep, VecCall.toOp, hn, Arr.abs, ha, h3, h4]
      | false =>
        have : VecCall.run E v (.reserve n) = .exit .alloc := reserve_fail h (by omega) hc ha
        rw [this]
        simp [Spec.SeqStep, VecCall.toOp, Arr.abs, hn, ha, Out.Safe]
  | resize n =>
    by_cases hn : n = 0
    · subst hn
      have : VecCall.run E v (.resize 0) = .exit .dbgAssert := by
        simp [VecCall.run, Vec.resize, dassert_false hD]
      rw [this]
      simp [Spec.SeqStep, VecCall.toOp, Out.Safe]
    · by_cases ha : n = v.cap ∨ E.allocOk (n * v.elsize) = true
      · obtain ⟨v', extra, h1, h2, h3, h4⟩ := resize_spec (E := E) h (by omega : 0 < n) hc ha
        have : VecCall.run E v (.resize n) = .ok v' := h1
        rw [this]
        refine ⟨?_, by intro v'' hv; cases hv; exact h4, by simp [Out.Safe]⟩
        simp only [Spec.SeqStep, VecCall.toOp, hn, if_false]
        rw [if_pos (by simpa [Arr.abs] using ha)]
        exact ⟨extra, by simp only [mapOk]; rw [h2]; rfl, h3⟩
      · have hc' : n ≠ v.cap := fun e => ha (Or.inl e)
        have hf : E.allocOk (n * v.elsize) = false := by
          cases hq : E.allocOk (n * v.elsize) with
          | true => exact absurd (Or.inr hq) ha
          | false => rfl
        have e2 : wmul n v.elsize = n * v.elsize := wmul_eq (by have : n * v.elsize < 2 ^ 63 := hc; omega)
        have hp : 0 < n * v.elsize := Nat.mul_pos (by omega) h.es
        have hn0 : 0 < n := by omega
        have : VecCall.run E v (.resize n) = .exit .alloc := by
          simp [VecCall.run, Vec.resize, hn0, hc', e2, vtRealloc_fail hp hf]
        rw [this]
        simp [Spec.SeqStep, VecCall.toOp, Arr.abs, hn, hc', hf, Out.Safe]
  | shrink =>
    by_cases hne : v.len = v.cap
    · have : VecCall.run E v .shrink = .ok v := by simp [VecCall.run, Vec.shrink, hne]
      rw [this]
      refine ⟨?_, by intro v'' hv; cases hv; exact ⟨h, rfl, rfl, rfl⟩, by simp [Out.Safe]⟩
      simp [Spec.SeqStep, VecCall.toOp, Arr.abs, hl, hne]
    · by_cases h0 : v.len = 0
      · have hw : wmul 0 v.elsize = 0 := by rw [wmul_eq] <;> simp
        have : VecCall.run E v .shrink = .exit .cAssert := by
          rw [h0] at hne
          simp [VecCall.run, Vec.shrink, h0, hne, vtRealloc, hw, cassert_false hD]
        rw [this]
        simp [Spec.SeqStep, VecCall.toOp, Arr.abs, hl, hne, Out.Safe]
        omega
      · cases ha : E.allocOk (v.len * v.elsize) with
        | true =>
          obtain ⟨v', h1, h2, h3⟩ := shrink_spec h (by omega) hne ha
          have : VecCall.run E v .shrink = .ok v' := h1
          rw [this]
          refine ⟨?_, by intro v'' hv; cases hv; exact h3, by simp [Out.Safe]⟩
          simp only [Spec.SeqStep, VecCall.toOp, Arr.abs, hl, hne, h0, ha, if_false, if_true, mapOk]
          exact congrArg Out.ok h2
        | false =>
          have e2 : wmul v.len v.elsize = v.len * v.elsize := wmul_eq (by have := h.lenlt; omega)
          have hp : 0 < v.len * v.elsize := Nat.mul_pos (by omega) h.es
          have : VecCall.run E v .shrink = .exit .alloc := by
            simp [VecCall.run, Vec.shrink, hne, e2, vtRealloc_fail hp ha]
          rw [this]
          simp [Spec.SeqStep, VecCall.toOp, Arr.abs, hl, hne, h0, ha, Out.Safe]

end Vita
