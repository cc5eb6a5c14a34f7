import Verif.Model.Plist
import Verif.Spec.Plist
import Verif.Props.Vec
/-!
# Properties C13, C14 (and C08-C10 for pointer lists)
-/

namespace Vita
open Out

seal wadd wsub wmul

/-- Run one operation of the model. -/
def Spec.PlOp.run (E : Env) (p : Arr) : Spec.PlOp → Out Arr
  | .pushBack q => Plist.pushBack E p q
  | .pushFront q => Plist.pushFront E p q
  | .insert q i => Plist.insert E p q i
  | .set q i => Plist.set E p q i
  | .removeStable i => Plist.remove E p i .stable
  | .removeFast i => Plist.remove E p i .fast
  | .removeElement q => Plist.removeElement E p q .stable
  | .removeElementFast q => Plist.removeElement E p q .fast
  | .pop => .ok (Plist.pop p)
  | .clear => .ok (Plist.clear p)
  | .reserve n => Plist.reserve E p n
  | .shrink => Plist.shrink E p

/-- The only argument restriction: the byte count of a reservation does not overflow. -/
def Spec.PlOp.Fits : Spec.PlOp → Prop
  | .reserve n => n * 8 < 2 ^ 63
  | _ => True

/-- Run a history of operations of the model. -/
def runPl (E : Env) : Arr → List Spec.PlOp → Out Arr
  | p, [] => .ok p
  | p, c :: cs => c.run E p >>= fun p' => runPl E p' cs

/-- What a user can see of a pointer list agrees with the abstract state. -/
def PlObserves (E : Env) (p : Arr) (s : Spec.SeqState Ptr) : Prop :=
  Plist.length p = s.elems.length ∧ p.cap = s.cap ∧
  ∀ i, Plist.get E p i = match s.elems[i]? with
    | some q => .ok q
    | none => .exit .dbgAssert

/-! ### Lemmas -/

theorem ptrBytes_length (q : Ptr) : (ptrBytes q).length = 8 := leBytes_length _ _

theorem leValue_ptrBytes (q : Ptr) : Vec.leValue (ptrBytes q) = .ok q.toNat := by
  rw [ptrBytes, leValue_leBytes, Nat.mod_eq_of_lt q.isLt]

theorem ptrBytes_inj {a b : Ptr} (h : ptrBytes a = ptrBytes b) : a = b := by
  have h1 := leValue_ptrBytes a
  rw [h, leValue_ptrBytes] at h1
  injection h1 with h1
  exact BitVec.eq_of_toNat_eq h1.symm

/-- Encoding of an abstract state. -/
def encState (s : Spec.SeqState Ptr) : Spec.SeqState (List Byte) := ⟨s.elems.map ptrBytes, s.cap⟩

structure PlHolds (p : Arr) (s : Spec.SeqState Ptr) : Prop where
  wf : p.WF
  es : p.elsize = 8
  abs : p.abs = encState s

theorem PlHolds.elems {p : Arr} {s} (h : PlHolds p s) : p.elems = s.elems.map ptrBytes :=
  congrArg Spec.SeqState.elems h.abs
theorem PlHolds.cap {p : Arr} {s} (h : PlHolds p s) : p.cap = s.cap :=
  congrArg Spec.SeqState.cap h.abs
theorem PlHolds.len {p : Arr} {s} (h : PlHolds p s) : p.len = s.elems.length := by
  have := congrArg List.length h.elems
  simpa [Arr.elems] using this

theorem withRoom_enc (E : Env) (s : Spec.SeqState Ptr) (l : List Ptr) :
    Spec.withRoom E 8 (encState s) (l.map ptrBytes) = (Spec.withRoom E 8 s l).mapOk encState := by
  unfold Spec.withRoom
  simp only [encState, List.length_map]
  split
  · rfl
  · have hb : E.allocOk (3 * s.cap * 8) = true ∨ E.allocOk (3 * s.cap * 8) = false := by
      cases E.allocOk (3 * s.cap * 8) <;> simp
    rcases hb with ha | ha <;> simp [ha, encState]

theorem loadPtr_elem {p : Arr} (h : p.WF) (hes : p.elsize = 8) {i : Nat} {q : Ptr}
    (hq : p.elems[i]? = some (ptrBytes q)) : loadPtr p.mem i = .ok q := by
  have hl : p.elems.length = p.len := by simp [Arr.elems]
  have hi : i < p.len := by rw [← hl]; exact (List.getElem?_eq_some_iff.1 hq).1
  have hlt := h.lenlt
  have hle := h.le
  have hm := h.mem
  rw [hes] at hm hlt
  have hg : p.elems[i]? = some ((p.mem.drop (i * 8)).take 8) := by
    rw [Arr.elems, chunks_getElem?, if_pos hi, hes]
  rw [hg] at hq
  rw [loadPtr, readN_ok (by omega), Option.some.inj hq]
  simp [leValue_ptrBytes]

/-- Storing a pointer is the 8-byte copy of the vector model. -/
theorem storePtr_eq (m : Mem) (i : Nat) (q : Ptr) :
    storePtr m i q = memcpyIn m (i * 8) (ptrBytes q) 8 := by
  have hl := ptrBytes_length q
  rw [memcpyIn, readN_ok (by omega)]
  simp only [bind_ok, List.drop_zero, List.take_of_length_le (Nat.le_of_eq hl)]
  rfl

theorem ptr_ne_zero {q : Ptr} (h : q ≠ 0) : (q != 0) = true := by simpa using h

theorem plReserve_eq (E : Env) (p : Arr) (n : Nat) : Plist.reserve E p n = Vec.reserve E p n := by
  simp only [Plist.reserve, Vec.reserve]

theorem plGrow_eq (E : Env) (p : Arr) : Plist.grow E p = Vec.grow E p := by
  simp only [Plist.grow, Vec.grow, plReserve_eq]

theorem grow_len {E : Env} {p p' : Arr} (h : Vec.grow E p = .ok p') : p'.len = p.len := by
  unfold Vec.grow at h
  split at h
  · simp only [Vec.reserve, bind_eq_ok] at h
    obtain ⟨_, _, _, _, h3⟩ := h
    cases h3; rfl
  · cases h; rfl

/-- Up to the end of a list, the product that addresses an element does not wrap around. -/
theorem wmul8 {p : Arr} (h : p.WF) (hes : p.elsize = 8) {i : Nat} (hi : i ≤ p.len) : wmul i 8 = i * 8 := by
  have hlt := h.lenlt
  rw [hes] at hlt
  exact wmul_eq (by omega)

theorem grow_elsize {E : Env} {p p' : Arr} (h : Vec.grow E p = .ok p') : p'.elsize = p.elsize := by
  unfold Vec.grow at h
  split at h
  · simp only [Vec.reserve, bind_eq_ok] at h
    obtain ⟨_, _, _, _, h3⟩ := h
    cases h3; rfl
  · cases h; rfl

theorem plPush_eq (E : Env) (p : Arr) (hw : p.WF) (q : Ptr) (hq : q ≠ 0) (hes : p.elsize = 8) :
    Plist.pushBack E p q = Vec.pushBack E p (ptrBytes q) := by
  simp only [Plist.pushBack, Vec.pushBack, ptr_ne_zero hq, dassert_true, bind_ok, plGrow_eq]
  cases hg : Vec.grow E p with
  | ok p' =>
    have he : p'.elsize = 8 := by rw [grow_elsize hg, hes]
    have e := wmul8 hw hes (Nat.le_of_eq (grow_len hg))
    simp only [bind_ok, storePtr_eq, he, e]
  | _ => simp only [bind_exit, bind_ub, bind_fuel]

theorem plInsert_eq (E : Env) (p : Arr) (hw : p.WF) (q : Ptr) (hq : q ≠ 0) (hes : p.elsize = 8) {i : Nat} (hi : i ≤ p.len) :
    Plist.insert E p q i = Vec.insert E p (ptrBytes q) i := by
  simp only [Plist.insert, Vec.insert, ptr_ne_zero hq, dassert_true, bind_ok, plGrow_eq]
  congr 1
  funext _
  cases hg : Vec.grow E p with
  | ok p' =>
    have he : p'.elsize = 8 := by rw [grow_elsize hg, hes]
    simp only [bind_ok, storePtr_eq, he, wmul8 hw hes hi]
  | _ => simp only [bind_exit, bind_ub, bind_fuel]

theorem plSet_eq (E : Env) (p : Arr) (hw : p.WF) (q : Ptr) (hq : q ≠ 0) (hes : p.elsize = 8) {i : Nat} (hi : i < p.len) :
    Plist.set E p q i = Vec.set E p (ptrBytes q) i := by
  simp only [Plist.set, Vec.set, Vec.arrSet, ptr_ne_zero hq, hi, decide_true, dassert_true, bind_ok,
    storePtr_eq, hes, wmul8 hw hes (Nat.le_of_lt hi)]

theorem plRemoveStable_eq (E : Env) (p : Arr) (hw : p.WF) (hes : p.elsize = 8) {i : Nat} (hi : i < p.len) :
    Plist.remove E p i .stable = Vec.remove E p i .stable := by
  have e1 := wmul8 hw hes (Nat.le_of_lt hi)
  have e2 := wmul8 hw hes hi
  have hlt := hw.lenlt
  have e3 : wadd i 1 = i + 1 := wadd_eq (by omega)
  simp only [Plist.remove, Vec.remove, Plist.removeMem, Vec.removeMem, hes, e1, e3, e2]

/-- An environment in which swapping through a temporary always works. -/
def swapEnv : Env := ⟨true, fun n => n == 8, false, by intro n h; simp at h; omega⟩

theorem pswap_of_gswap {m m' : Mem} {a b : Nat} (h : gswap swapEnv m (a * 8) (b * 8) 8 = .ok m') :
    pswap m a b = .ok m' := by
  have hc : cassert swapEnv (8 != 0) = .ok () := by decide
  simp only [gswap, hc, bind_ok, bind_eq_ok] at h
  obtain ⟨_, _, t, ht, bb, hb, h⟩ := h
  simp only [pswap, ht, hb, bind_ok]
  split at h
  · simpa [swapEnv] using h
  · split at h
    · cases h
    · exact h

theorem plRemoveFast_of (E : Env) (p p' : Arr) (hw : p.WF) (hes : p.elsize = 8) {i : Nat} (hi : i < p.len)
    (h : Vec.remove swapEnv p i .fast = .ok p') : Plist.remove E p i .fast = .ok p' := by
  have e2 : wmul (wsub p.len 1) 8 = wsub p.len 1 * 8 := by
    have hlt := hw.lenlt
    rw [hes] at hlt
    rw [wsub_eq (by omega) (by omega)]
    exact wmul8 hw hes (by omega)
  simp only [Vec.remove, Vec.removeMem, hi, decide_true, dassert_true, bind_ok, bind_eq_ok, hes, wmul8 hw hes (Nat.le_of_lt hi), e2] at h
  obtain ⟨m, h1, h2⟩ := h
  simp only [Plist.remove, Plist.removeMem, hi, decide_true, dassert_true, bind_ok, pswap_of_gswap h1, hes]
  exact h2

theorem insertAt_map (l : List α) (i : Nat) (x : α) (f : α → β) :
    Spec.insertAt (l.map f) i (f x) = (Spec.insertAt l i x).map f := by
  simp [Spec.insertAt]
theorem removeAt_map (l : List α) (i : Nat) (f : α → β) :
    Spec.removeAt (l.map f) i = (Spec.removeAt l i).map f := by
  simp [Spec.removeAt]
theorem swapRemove_map (l : List α) (i : Nat) (f : α → β) :
    Spec.swapRemove (l.map f) i = (Spec.swapRemove l i).map f := by
  unfold Spec.swapRemove
  rw [List.getLast?_map]
  cases l.getLast? with
  | none => rfl
  | some x => simp [List.map_set, List.map_dropLast]

theorem plFind_loop {p : Arr} {s : Spec.SeqState Ptr} (h : PlHolds p s) (q : Ptr) (k : Nat) :
    ∀ i, i + k = p.len → (∀ j, j < i → s.elems[j]? ≠ some q) →
    ∃ r, Plist.canFindLoop p q k i = .ok r ∧ Spec.IsFirstIndex s.elems q r := by
  have hlen := h.len
  induction k with
  | zero =>
    intro i hi hb
    refine ⟨-1, rfl, Or.inl ⟨rfl, fun hm => ?_⟩⟩
    obtain ⟨j, hj, hje⟩ := List.getElem_of_mem hm
    exact hb j (by omega) (by rw [List.getElem?_eq_getElem hj, hje])
  | succ k ih =>
    intro i hi hb
    have hil : i < s.elems.length := by omega
    have hx : p.elems[i]? = some (ptrBytes s.elems[i]) := by
      rw [h.elems, List.getElem?_map, List.getElem?_eq_getElem hil]; rfl
    rw [Plist.canFindLoop, loadPtr_elem h.wf h.es hx]
    simp only [bind_ok]
    by_cases he : s.elems[i] = q
    · refine ⟨i, by simp [he], Or.inr ⟨i, rfl, by rw [List.getElem?_eq_getElem hil, he], hb⟩⟩
    · simp only [he, if_false]
      refine ih (i + 1) (by omega) ?_
      intro j hj
      by_cases hji : j = i
      · subst hji; rw [List.getElem?_eq_getElem hil]; intro hc; exact he (Option.some.inj hc)
      · exact hb j (by omega)

theorem isFirstIndex_idxOf {l : List Ptr} {q : Ptr} {r : Int} (h : Spec.IsFirstIndex l q r) :
    (q ∉ l ∧ r = -1) ∨ (q ∈ l ∧ r = (l.idxOf q : Int) ∧ l.idxOf q < l.length) := by
  rcases h with ⟨h1, h2⟩ | ⟨i, h1, h2, h3⟩
  · exact Or.inl ⟨h2, h1⟩
  · have hmem : q ∈ l := List.mem_of_getElem? h2
    have hlt := List.idxOf_lt_length_of_mem hmem
    refine Or.inr ⟨hmem, ?_, hlt⟩
    rw [h1]
    congr 1
    have hi : i < l.length := (List.getElem?_eq_some_iff.1 h2).1
    have hq : l[l.idxOf q]? = some q := by
      rw [List.getElem?_eq_getElem hlt, List.getElem_idxOf]
    rcases Nat.lt_trichotomy i (l.idxOf q) with hlt' | heq | hgt
    · exfalso
      have := List.not_of_lt_findIdx (xs := l) (p := (· == q)) hlt'
      rw [List.getElem?_eq_getElem hi] at h2
      simp [Option.some.inj h2] at this
    · exact heq
    · exact absurd hq (h3 _ hgt)

theorem erase_eq_removeAt {l : List Ptr} {q : Ptr} (h : q ∈ l) :
    l.erase q = Spec.removeAt l (l.idxOf q) := by
  rw [List.erase_eq_eraseIdx_of_idxOf rfl]
  have := List.idxOf_lt_length_of_mem h
  rw [Spec.removeAt, List.eraseIdx_eq_take_drop_succ]

theorem plCanFind {E : Env} {p : Arr} {s : Spec.SeqState Ptr} (h : PlHolds p s) {q : Ptr} (hq : q ≠ 0) :
    ∃ r, Plist.canFind E p q = .ok r ∧ Spec.IsFirstIndex s.elems q r := by
  obtain ⟨r, h1, h2⟩ := plFind_loop h q p.len 0 (by omega) (by omega)
  exact ⟨r, by simp only [Plist.canFind, ptr_ne_zero hq, dassert_true, bind_ok, h1], h2⟩

/-! ### One step -/

theorem plStep_ok {E : Env} (hD : E.debug = true) {p : Arr} {s : Spec.SeqState Ptr} (h : PlHolds p s)
    (c : Spec.PlOp) (hc : c.Fits) :
    (c.run E p).mapOk Arr.abs = (Spec.plStep E s c).mapOk encState ∧
    (∀ p', c.run E p = .ok p' → p'.WF ∧ p'.elsize = 8) := by
  have hel := h.elems
  have hcap := h.cap
  have hlen := h.len
  have hes := h.es
  have hw := h.wf
  have habs := h.abs
  have val : ∀ q : Ptr, p.elsize ≤ (ptrBytes q).length := fun q => by rw [ptrBytes_length, hes]; omega
  have tk : ∀ q : Ptr, (ptrBytes q).take p.elsize = ptrBytes q := fun q => by
    rw [hes, List.take_of_length_le (by rw [ptrBytes_length]; omega)]
  have fin : ∀ (p' : Arr) (l : List Ptr), p'.abs = ⟨l.map ptrBytes, p.cap⟩ → p'.abs = encState ⟨l, s.cap⟩ := by
    intro p' l hh; rw [hh, hcap]; rfl
  -- removals by index
  have rmS : ∀ i, i < p.len → ∃ p', Plist.remove E p i .stable = .ok p' ∧
      p'.abs = encState ⟨Spec.removeAt s.elems i, s.cap⟩ ∧ p'.WF ∧ p'.elsize = 8 := by
    intro i hi
    obtain ⟨v', h1, h2, h3, h4⟩ := removeStable_spec (E := E) hw hi
    refine ⟨v', by rw [plRemoveStable_eq E p hw hes hi, h1], fin _ _ ?_, h3, h4.1.trans hes⟩
    rw [h2, hel, removeAt_map]
  have rmF : ∀ i, i < p.len → ∃ p', Plist.remove E p i .fast = .ok p' ∧
      p'.abs = encState ⟨Spec.swapRemove s.elems i, s.cap⟩ ∧ p'.WF ∧ p'.elsize = 8 := by
    intro i hi
    obtain ⟨v', h1, h2, h3, h4⟩ := removeFast_spec (E := swapEnv) rfl hw hi (by rw [hes]; rfl)
    refine ⟨v', plRemoveFast_of E p v' hw hes hi h1, fin _ _ ?_, h3, h4.1.trans hes⟩
    rw [h2, hel, swapRemove_map]
  have z : ((0 : Ptr) != 0) = false := by decide
  cases c with
  | pushBack q =>
    by_cases hq : q = 0
    · subst hq
      simp [Spec.PlOp.run, Spec.plStep, Spec.guardOp, Plist.pushBack, dassert_false hD]
    · obtain ⟨h1, h2⟩ := pushBack_spec (E := E) hw (val q)
      simp only [Spec.PlOp.run, Spec.plStep, Spec.guardOp]
      rw [if_pos (show q ≠ 0 from hq), plPush_eq E p hw q hq hes]
      refine ⟨?_, fun p' hp => ⟨(h2 p' hp).1, (h2 p' hp).2.1.trans hes⟩⟩
      rw [h1, tk, hel, hes, habs, ← withRoom_enc]; simp
  | pushFront q =>
    by_cases hq : q = 0
    · subst hq
      simp [Spec.PlOp.run, Spec.plStep, Spec.guardOp, Plist.pushFront, dassert_false hD]
    · obtain ⟨h1, h2⟩ := pushFront_spec (E := E) hw (val q)
      have e : Plist.pushFront E p q = Vec.pushFront E p (ptrBytes q) := by
        simp only [Plist.pushFront, Vec.pushFront, ptr_ne_zero hq, dassert_true, bind_ok,
          plInsert_eq E p hw q hq hes (Nat.zero_le _), plPush_eq E p hw q hq hes]
      simp only [Spec.PlOp.run, Spec.plStep, Spec.guardOp]
      rw [if_pos (show q ≠ 0 from hq), e]
      refine ⟨?_, fun p' hp => ⟨(h2 p' hp).1, (h2 p' hp).2.1.trans hes⟩⟩
      rw [h1, tk, hel, hes, habs, ← withRoom_enc]; simp
  | insert q i =>
    by_cases hq : q = 0
    · subst hq
      simp [Spec.PlOp.run, Spec.plStep, Spec.guardOp, Plist.insert, dassert_false hD]
    · by_cases hi : i < p.len
      · obtain ⟨h1, h2⟩ := insert_spec (E := E) hw (val q) hi
        simp only [Spec.PlOp.run, Spec.plStep, Spec.guardOp]
        rw [if_pos (show q ≠ 0 ∧ i < s.elems.length from ⟨hq, by omega⟩), plInsert_eq E p hw q hq hes (Nat.le_of_lt hi)]
        refine ⟨?_, fun p' hp => ⟨(h2 p' hp).1, (h2 p' hp).2.1.trans hes⟩⟩
        rw [h1, tk, hel, hes, habs, ← withRoom_enc, insertAt_map]
      · have hi' : ¬ i < s.elems.length := by omega
        have hq' : (q != 0#64) = true := ptr_ne_zero hq
        simp [Spec.PlOp.run, Spec.plStep, Spec.guardOp, Plist.insert, hi, hi', dassert_false hD, hq']
  | set q i =>
    by_cases hq : q = 0
    · subst hq
      simp [Spec.PlOp.run, Spec.plStep, Spec.guardOp, Plist.set, dassert_false hD]
    · by_cases hi : i < p.len
      · obtain ⟨v', h1, h2, h3, h4⟩ := set_spec (E := E) hw (val q) hi
        simp only [Spec.PlOp.run, Spec.plStep, Spec.guardOp]
        rw [if_pos (show q ≠ 0 ∧ i < s.elems.length from ⟨hq, by omega⟩), plSet_eq E p hw q hq hes hi, h1]
        refine ⟨?_, fun p' hp => by cases hp; exact ⟨h3, h4.1.trans hes⟩⟩
        simp only [mapOk]
        rw [h2, tk, hel, hcap, encState, List.map_set]
      · have hi' : ¬ i < s.elems.length := by omega
        have hq' : (q != 0#64) = true := ptr_ne_zero hq
        simp [Spec.PlOp.run, Spec.plStep, Spec.guardOp, Plist.set, hi, hi', dassert_false hD, hq']
  | removeStable i =>
    by_cases hi : i < p.len
    · obtain ⟨p', h1, h2, h3⟩ := rmS i hi
      simp only [Spec.PlOp.run, Spec.plStep, Spec.guardOp]
      rw [if_pos (show i < s.elems.length by omega), h1]
      exact ⟨by simp only [mapOk]; rw [h2], fun p'' hp => by cases hp; exact h3⟩
    · have hi' : ¬ i < s.elems.length := by omega
      simp [Spec.PlOp.run, Spec.plStep, Spec.guardOp, Plist.remove, hi, hi', dassert_false hD]
  | removeFast i =>
    by_cases hi : i < p.len
    · obtain ⟨p', h1, h2, h3⟩ := rmF i hi
      simp only [Spec.PlOp.run, Spec.plStep, Spec.guardOp]
      rw [if_pos (show i < s.elems.length by omega), h1]
      exact ⟨by simp only [mapOk]; rw [h2], fun p'' hp => by cases hp; exact h3⟩
    · have hi' : ¬ i < s.elems.length := by omega
      simp [Spec.PlOp.run, Spec.plStep, Spec.guardOp, Plist.remove, hi, hi', dassert_false hD]
  | removeElement q =>
    by_cases hq : q = 0
    · subst hq
      simp [Spec.PlOp.run, Spec.plStep, Spec.guardOp, Plist.removeElement, dassert_false hD]
    · obtain ⟨r, f1, f2⟩ := plCanFind (E := E) h hq
      simp only [Spec.PlOp.run, Spec.plStep, Spec.guardOp, Plist.removeElement, ptr_ne_zero hq, dassert_true,
        bind_ok, f1]
      rw [if_pos (show q ≠ 0 from hq)]
      rcases isFirstIndex_idxOf f2 with ⟨g1, rfl⟩ | ⟨g1, rfl, g3⟩
      · rw [List.erase_of_not_mem g1, if_neg (by omega)]
        exact ⟨by simp only [mapOk]; rw [habs], fun p'' hp => by cases hp; exact ⟨hw, hes⟩⟩
      · obtain ⟨p', h1, h2, h3⟩ := rmS (s.elems.idxOf q) (by omega)
        rw [if_pos (by omega), Int.toNat_natCast, h1, erase_eq_removeAt g1]
        exact ⟨by simp only [mapOk]; rw [h2], fun p'' hp => by cases hp; exact h3⟩
  | removeElementFast q =>
    by_cases hq : q = 0
    · subst hq
      simp [Spec.PlOp.run, Spec.plStep, Spec.guardOp, Plist.removeElement, dassert_false hD]
    · obtain ⟨r, f1, f2⟩ := plCanFind (E := E) h hq
      simp only [Spec.PlOp.run, Spec.plStep, Spec.guardOp, Plist.removeElement, ptr_ne_zero hq, dassert_true,
        bind_ok, f1]
      rw [if_pos (show q ≠ 0 from hq)]
      rcases isFirstIndex_idxOf f2 with ⟨g1, rfl⟩ | ⟨g1, rfl, g3⟩
      · rw [if_neg g1, if_neg (by omega)]
        exact ⟨by simp only [mapOk]; rw [habs], fun p'' hp => by cases hp; exact ⟨hw, hes⟩⟩
      · obtain ⟨p', h1, h2, h3⟩ := rmF (s.elems.idxOf q) (by omega)
        rw [if_pos g1, if_pos (by omega), Int.toNat_natCast, h1]
        exact ⟨by simp only [mapOk]; rw [h2], fun p'' hp => by cases hp; exact h3⟩
  | pop =>
    obtain ⟨h1, h2, h3⟩ := pop_spec hw
    have e : Plist.pop p = Vec.pop p := rfl
    simp only [Spec.PlOp.run, Spec.plStep, e, mapOk]
    refine ⟨?_, fun p' hp => by cases hp; exact ⟨h2, h3.1.trans hes⟩⟩
    rw [h1, hel, hcap, encState, List.map_dropLast]
  | clear =>
    obtain ⟨h1, h2, h3⟩ := clear_spec hw
    have e : Plist.clear p = Vec.clear p := rfl
    simp only [Spec.PlOp.run, Spec.plStep, e, mapOk]
    refine ⟨?_, fun p' hp => by cases hp; exact ⟨h2, h3.1.trans hes⟩⟩
    rw [h1, hcap]; rfl
  | reserve n =>
    have hf : n * p.elsize < 2 ^ 63 := by rw [hes]; exact hc
    simp only [Spec.PlOp.run, Spec.plStep, Spec.guardOp]
    by_cases hn : 0 < n
    · rw [if_pos hn, plReserve_eq]
      cases ha : E.allocOk ((p.cap + n) * p.elsize) with
      | true =>
        obtain ⟨v', h1, h2, h3, h4, h5, h6, _⟩ := reserve_ok hw hn hf ha
        rw [h1]
        rw [hes, hcap] at ha
        simp only [ha, if_true, mapOk]
        refine ⟨?_, fun p' hp => by cases hp; exact ⟨h2, h6.trans hes⟩⟩
        simp only [Arr.abs, encState, h3, h4, hel, hcap]
      | false =>
        rw [reserve_fail hw hn hf ha]
        rw [hes, hcap] at ha
        simp [ha]
    · rw [if_neg hn]
      simp [Plist.reserve, hn, dassert_false hD]
  | shrink =>
    have e : Plist.shrink E p = Vec.shrink E p := rfl
    simp only [Spec.PlOp.run, Spec.plStep, e]
    by_cases hfull : p.len = p.cap
    · rw [if_pos (by omega)]
      simp only [Vec.shrink, hfull, if_true, mapOk]
      exact ⟨by rw [habs], fun p' hp => by cases hp; exact ⟨hw, hes⟩⟩
    · rw [if_neg (by omega)]
      by_cases h0 : p.len = 0
      · have h0' : s.elems = [] := List.eq_nil_of_length_eq_zero (by omega)
        have wz : wmul 0 p.elsize = 0 := by
          have : wmul 0 p.elsize = 0 * p.elsize := wmul_eq (by omega)
          omega
        have hc0 : ¬ (0 = p.cap) := by omega
        rw [if_pos h0']
        simp [Vec.shrink, h0, hc0, wz, vtRealloc, cassert_false hD]
      · have h0' : s.elems ≠ [] := by
          intro hc; rw [hc] at hlen; simp at hlen; omega
        rw [if_neg h0']
        have hlt := hw.lenlt
        cases ha : E.allocOk (p.len * p.elsize) with
        | true =>
          obtain ⟨v', h1, h2, h3, h4⟩ := shrink_spec hw (by omega) hfull ha
          rw [h1]
          rw [hes, hlen] at ha
          simp only [ha, if_true, mapOk]
          exact ⟨by rw [h2, hel, hlen, encState], fun p' hp => by cases hp; exact ⟨h3, h4.1.trans hes⟩⟩
        | false =>
          have e2 : wmul p.len p.elsize = p.len * p.elsize := wmul_eq (by omega)
          have hp : 0 < p.len * p.elsize := Nat.mul_pos (by omega) hw.es
          have : Vec.shrink E p = .exit .alloc := by
            simp only [Vec.shrink, hfull, if_false, e2, vtRealloc_fail hp ha, bind_exit]
          rw [this]
          rw [hes, hlen] at ha
          simp [ha]

theorem plHolds_observes {E : Env} (hD : E.debug = true) {p : Arr} {s : Spec.SeqState Ptr} (h : PlHolds p s) :
    PlObserves E p s := by
  refine ⟨h.len, h.cap, fun i => ?_⟩
  by_cases hi : i < p.len
  · have hil : i < s.elems.length := by have := h.len; omega
    have hx : p.elems[i]? = some (ptrBytes s.elems[i]) := by
      rw [h.elems, List.getElem?_map, List.getElem?_eq_getElem hil]; rfl
    rw [List.getElem?_eq_getElem hil]
    simp [Plist.get, hi, loadPtr_elem h.wf h.es hx]
  · have : s.elems[i]? = none := by rw [List.getElem?_eq_none]; have := h.len; omega
    rw [this]
    simp [Plist.get, hi, dassert_false hD]

/-- The relation between the outcome of a history in the model and in the specification. -/
def PlAgree (E : Env) (o : Out Arr) (so : Out (Spec.SeqState Ptr)) : Prop :=
  match so with
  | .ok s => ∃ p, o = .ok p ∧ PlObserves E p s ∧ p.len ≤ p.cap ∧ p.mem.length = p.cap * 8
  | .exit w => o = .exit w
  | _ => False

theorem plRun_ok {E : Env} (hD : E.debug = true) (cs : List Spec.PlOp) :
    ∀ (p : Arr) (s : Spec.SeqState Ptr), PlHolds p s → (∀ c ∈ cs, c.Fits) →
    PlAgree E (runPl E p cs) (Spec.plRun E s cs) := by
  induction cs with
  | nil =>
    intro p s h _
    exact ⟨p, rfl, plHolds_observes hD h, h.wf.le, by rw [h.wf.mem, h.es]⟩
  | cons c cs ih =>
    intro p s h hf
    obtain ⟨h1, h2⟩ := plStep_ok hD h c (hf c (by simp))
    cases hr : c.run E p with
    | ok p1 =>
      rw [hr] at h1
      cases hs : Spec.plStep E s c with
      | ok s1 =>
        rw [hs] at h1
        simp only [mapOk] at h1
        injection h1 with h1
        have := ih p1 s1 ⟨(h2 p1 hr).1, (h2 p1 hr).2, h1⟩ (fun c hc => hf c (by simp [hc]))
        simpa only [runPl, hr, bind_ok, Spec.plRun, hs] using this
      | _ => rw [hs] at h1; cases h1
    | exit w =>
      rw [hr] at h1
      cases hs : Spec.plStep E s c with
      | exit w' =>
        rw [hs] at h1
        simp only [mapOk] at h1
        injection h1 with h1
        subst h1
        simp only [runPl, hr, bind_exit, Spec.plRun, hs, PlAgree]
      | _ => rw [hs] at h1; cases h1
    | ub =>
      rw [hr] at h1
      cases hs : Spec.plStep E s c with
      | ub =>
        exfalso
        cases c <;> simp only [Spec.plStep, Spec.guardOp, Spec.withRoom] at hs <;> (repeat' split at hs) <;> cases hs
      | _ => rw [hs] at h1; cases h1
    | fuel =>
      rw [hr] at h1
      cases hs : Spec.plStep E s c with
      | fuel =>
        exfalso
        cases c <;> simp only [Spec.plStep, Spec.guardOp, Spec.withRoom] at hs <;> (repeat' split at hs) <;> cases hs
      | _ => rw [hs] at h1; cases h1

theorem plCreate_ok {E : Env} {n : Nat} (hn : 0 < n) (hsz : n * 8 < 2 ^ 64)
    (h1 : E.allocOk arrStructSize = true) (h2 : E.allocOk (n * 8) = true) :
    ∃ p, Plist.create E n = .ok p ∧ PlHolds p ⟨[], n⟩ := by
  have e2 : wmul n 8 = n * 8 := wmul_eq hsz
  refine ⟨⟨0, n, 8, 0, false, List.replicate (n * 8) (some 0)⟩, ?_, ⟨by simp, by simp, by simp, hn, E.lim _ h2⟩, rfl, ?_⟩
  · simp [Plist.create, hn, e2, vtCalloc_ok (show 0 < n * 8 by omega) h2, vtCalloc_ok (by decide) h1]
  · simp [Arr.abs, Arr.elems, chunks, encState]

/-- **C13** Every history of calls on a fresh pointer list has the outcome of the abstract list of
pointers: the same termination, or a list whose length, capacity and every element read by
`vt_plist_get` are those of the abstract list; the buffer always has exactly `capacity * 8` bytes and undefined
behaviour is never reached. -/
theorem C13_plist_refines_sequence (E : Env) (hD : E.debug = true) (n : Nat) (hn : 0 < n)
    (hsz : n * 8 < 2 ^ 64) (h1 : E.allocOk arrStructSize = true) (h2 : E.allocOk (n * 8) = true)
    (cs : List Spec.PlOp) (hf : ∀ c ∈ cs, c.Fits) :
    PlAgree E (Plist.create E n >>= fun p => runPl E p cs) (Spec.plRun E ⟨[], n⟩ cs) := by
  obtain ⟨p, hp, hh⟩ := plCreate_ok hn hsz h1 h2
  rw [hp, bind_ok]
  exact plRun_ok hD cs p _ hh hf

example : (Plist.create exE 1 >>= fun p => runPl exE p
    [.pushBack 7, .pushBack 8, .pushFront 6, .insert 5 1, .removeElement 8, .removeFast 0, .shrink]).mapOk
      (fun p => (Plist.get exE p 0, Plist.get exE p 1, p.len, p.cap)) = .ok (.ok 7, .ok 5, 2, 2) := by decide +kernel

/-- **C14** Finding and removing by value, on any list built by calls. -/
theorem C14_remove_first_occurrence (E : Env) (hD : E.debug = true) (n : Nat) (hn : 0 < n)
    (hsz : n * 8 < 2 ^ 64) (h1 : E.allocOk arrStructSize = true) (h2 : E.allocOk (n * 8) = true)
    (cs : List Spec.PlOp) (hf : ∀ c ∈ cs, c.Fits) (s : Spec.SeqState Ptr)
    (hs : Spec.plRun E ⟨[], n⟩ cs = .ok s) (q : Ptr) (hq : q ≠ 0) :
    ∃ p, (Plist.create E n >>= fun p => runPl E p cs) = .ok p ∧
      (∃ r, Plist.canFind E p q = .ok r ∧ Spec.IsFirstIndex s.elems q r) ∧
      (∃ p', Plist.removeElement E p q .stable = .ok p' ∧ PlObserves E p' ⟨s.elems.erase q, s.cap⟩) ∧
      (∀ a b, s.elems = a ++ q :: b → q ∉ a → s.elems.erase q = a ++ b) ∧
      (q ∉ s.elems → s.elems.erase q = s.elems) := by
  obtain ⟨p0, hp, hh⟩ := plCreate_ok hn hsz h1 h2
  -- strengthen the run lemma to keep the invariant
  have run : ∀ (cs : List Spec.PlOp) (p : Arr) (s0 s : Spec.SeqState Ptr), PlHolds p s0 → (∀ c ∈ cs, c.Fits) →
      Spec.plRun E s0 cs = .ok s → ∃ p', runPl E p cs = .ok p' ∧ PlHolds p' s := by
    intro cs
    induction cs with
    | nil => intro p s0 s h _ hr; cases hr; exact ⟨p, rfl, h⟩
    | cons c cs ih =>
      intro p s0 s h hf hr
      obtain ⟨g1, g2⟩ := plStep_ok hD h c (hf c (by simp))
      cases hs : Spec.plStep E s0 c with
      | ok s1 =>
        rw [hs] at g1
        simp only [Spec.plRun, hs] at hr
        cases hc : c.run E p with
        | ok p1 =>
          rw [hc] at g1
          simp only [mapOk] at g1
          injection g1 with g1
          obtain ⟨p', e1, e2⟩ := ih p1 s1 s ⟨(g2 p1 hc).1, (g2 p1 hc).2, g1⟩ (fun c hc => hf c (by simp [hc])) hr
          exact ⟨p', by simp only [runPl, hc, bind_ok, e1], e2⟩
        | _ => rw [hc] at g1; cases g1
      | _ => simp only [Spec.plRun, hs] at hr; cases hr
  obtain ⟨p, e1, e2⟩ := run cs p0 _ s hh hf hs
  refine ⟨p, by rw [hp, bind_ok, e1], plCanFind e2 hq, ?_, ?_, fun hc => List.erase_of_not_mem hc⟩
  · obtain ⟨g1, g2⟩ := plStep_ok hD e2 (.removeElement q) trivial
    simp only [Spec.plStep, Spec.guardOp] at g1
    rw [if_pos (show q ≠ 0 from hq)] at g1
    cases hc : Spec.PlOp.run E p (.removeElement q) with
    | ok p1 =>
      rw [hc] at g1
      simp only [mapOk] at g1
      injection g1 with g1
      exact ⟨p1, hc, plHolds_observes hD ⟨(g2 p1 hc).1, (g2 p1 hc).2, g1⟩⟩
    | _ => rw [hc] at g1; cases g1
  · intro a b hab ha
    rw [hab, List.erase_append_right _ ha, List.erase_cons_head]

example : (Plist.create exE 3 >>= fun p => runPl exE p
    [.pushBack 7, .pushBack 8, .pushBack 7, .removeElement 7]).mapOk
      (fun p => (Plist.get exE p 0, Plist.get exE p 1, p.len)) = .ok (.ok 8, .ok 7, 2) := by decide +kernel

/-- A concrete list satisfying the hypothesis of the next theorems. -/
theorem exPlHolds : PlHolds ⟨2, 3, 8, 1, false, ptrBytes 7 ++ ptrBytes 8 ++ ptrBytes 0⟩ ⟨[7, 8], 3⟩ :=
  ⟨by decide, rfl, by simp only [Arr.abs, encState]; congr 1⟩

/-- **C83** `vt_plist_apply` passes every stored pointer with its index, in order. -/
theorem C83_plist_apply (p : Arr) (s : Spec.SeqState Ptr) (h : PlHolds p s) :
    Plist.apply p = .ok (s.elems.zipIdx) := by
  have gen : ∀ k i, i + k = p.len → Plist.applyTrace p k i = .ok ((s.elems.drop i).zipIdx i) := by
    have hlen := h.len
    intro k
    induction k with
    | zero => intro i hi; simp [Plist.applyTrace, List.drop_eq_nil_of_le (show s.elems.length ≤ i by omega)]
    | succ k ih =>
      intro i hi
      have hil : i < s.elems.length := by omega
      have hx : p.elems[i]? = some (ptrBytes s.elems[i]) := by
        rw [h.elems, List.getElem?_map, List.getElem?_eq_getElem hil]; rfl
      rw [Plist.applyTrace, loadPtr_elem h.wf h.es hx]
      simp only [bind_ok, ih (i + 1) (by omega)]
      rw [List.drop_eq_getElem_cons hil, List.zipIdx_cons]
  have := gen p.len 0 (by omega)
  rw [Plist.apply, this, List.drop_zero]

/-- `vt_plist_slide_back` is `vt_array_slide_back` with the bytes read as a pointer. -/
theorem plist_slideBack_ub {p : Arr} (hes : p.elsize = 8) (h : Slide.back p = .ub) : Plist.slideBack p = .ub := by
  unfold Slide.back at h
  unfold Plist.slideBack
  rw [hes] at h
  split at h
  · next hs =>
    rw [if_pos hs]
    unfold loadPtr
    dsimp only at h ⊢
    cases hr : readN p.mem (wmul (wsub (wsub p.len (wadd p.slider 1)) 2) 8) 8 with
    | ok b => rw [hr, bind_ok] at h; cases h
    | exit w => rw [hr, bind_exit] at h; cases h
    | ub =>
      have hm : p.mem.length < wmul (wsub (wsub p.len (wadd p.slider 1)) 2) 8 + 8 := by
        apply Nat.lt_of_not_le
        intro hc
        rw [readN_ok hc] at hr
        cases hr
      have hle : wmul (wsub (wsub p.len (wadd p.slider 1)) 2) 8 ≤ wsub (wsub p.len (wadd p.slider 1)) 2 * 8 := by
        rw [wmul]; exact Nat.mod_le _ _
      rw [readN_ub (by omega), bind_ub, bind_ub]
    | fuel => rw [hr] at h; cases h
  · cases h

/-- The pointers returned by `k` consecutive calls of `vt_plist_slide_back`. -/
def plBacks : Nat → Arr → Out (List Ptr)
  | 0, _ => .ok []
  | k + 1, p => Plist.slideBack p >>= fun r => plBacks k r.1 >>= fun rs => .ok (r.2 :: rs)

theorem plBack_step {p : Arr} {s : Spec.SeqState Ptr} (h : PlHolds p s) (hk : p.slider + 2 < s.elems.length) :
    Plist.slideBack p = .ok ({ p with slider := p.slider + 1 }, s.elems[s.elems.length - 3 - p.slider]) := by
  have hlen := h.len
  have hlt := h.wf.lenlt
  have hx : p.elems[s.elems.length - 3 - p.slider]? = some (ptrBytes s.elems[s.elems.length - 3 - p.slider]) := by
    rw [h.elems, List.getElem?_map, List.getElem?_eq_getElem (by omega)]; rfl
  have e0 : wadd p.slider 1 = p.slider + 1 := wadd_eq (by omega)
  have e1 : wsub (wsub p.len (p.slider + 1)) 2 = s.elems.length - 3 - p.slider := by
    rw [wsub_eq (a := p.len) (by omega) (by omega), wsub_eq (by omega) (by omega)]; omega
  unfold Plist.slideBack
  rw [if_pos (by omega)]
  simp only [e0, e1, loadPtr_elem h.wf h.es hx, bind_ok]

theorem PlHolds.slide {p : Arr} {s : Spec.SeqState Ptr} (h : PlHolds p s) (k : Nat) : PlHolds { p with slider := k } s :=
  ⟨⟨h.wf.le, h.wf.mem, h.wf.es, h.wf.cap, h.wf.lim⟩, h.es, h.abs⟩

/-- **C10** (pointer lists, refutation) No backward traversal of a non-empty list succeeds: within `n` calls `vt_plist_slide_back`
reads outside the buffer. -/
theorem C10_plist_slide_back_always_leaves_buffer (p : Arr) (s : Spec.SeqState Ptr) (h : PlHolds p s) (h0 : 0 < s.elems.length) :
    plBacks s.elems.length (Slide.reset p) = .ub := by
  have gen : ∀ (k : Nat) (p : Arr), PlHolds p s → p.slider < s.elems.length → p.slider + k = s.elems.length → plBacks k p = .ub := by
    intro k
    induction k with
    | zero => intro p _ h1 h2; omega
    | succ k ih =>
      intro p h h1 h2
      by_cases h3 : p.slider + 2 < s.elems.length
      · rw [plBacks, plBack_step h h3, bind_ok, ih _ (h.slide _) (by simp only; omega) (by simp only; omega), bind_ub]
      · rw [plBacks, plist_slideBack_ub h.es (back_ub h.wf (by rw [h.len]; exact h1) (by rw [h.len]; omega)), bind_ub]
  exact gen _ _ (h.slide 0) h0 (by simp [Slide.reset])

/-- **C10** (pointer lists, partial) Before that, the calls return the pointers from the third last on down to the first. -/
theorem C10_plist_slide_back_partial (p : Arr) (s : Spec.SeqState Ptr) (h : PlHolds p s) (k : Nat) (hk : k + 2 ≤ s.elems.length) :
    plBacks k (Slide.reset p) = .ok ((s.elems.dropLast.dropLast.reverse).take k) := by
  have gen : ∀ (k : Nat) (p : Arr), PlHolds p s → p.slider + k + 2 ≤ s.elems.length →
      plBacks k p = .ok (((s.elems.dropLast.dropLast.reverse).drop p.slider).take k) := by
    intro k
    induction k with
    | zero => intro p _ _; simp [plBacks]
    | succ k ih =>
      intro p h hk
      rw [plBacks, plBack_step h (by omega), bind_ok, ih _ (h.slide _) (by simp only; omega), bind_ok]
      have hd : p.slider < s.elems.dropLast.dropLast.reverse.length := by simp; omega
      rw [List.drop_eq_getElem_cons hd, List.take_succ_cons]
      simp only [List.getElem_reverse, List.getElem_dropLast, List.length_dropLast]
      have e : s.elems.length - 1 - 1 - 1 - p.slider = s.elems.length - 3 - p.slider := by omega
      simp only [e]
  have := gen k (Slide.reset p) (h.slide 0) (by simp [Slide.reset]; omega)
  rw [this]
  simp [Slide.reset]

/-- Example: the first backward step on a list of two pointers is already outside the buffer. -/
example :
    ∃ p, (Plist.create exE 2 >>= fun p => runPl exE p [.pushBack 7, .pushBack 8]) = .ok p ∧
      Plist.slideBack p = .ub := by
  refine ⟨⟨2, 2, 8, 0, false, ptrBytes 7 ++ ptrBytes 8⟩, ?_, ?_⟩ <;> decide +kernel

/-- **C09** (pointer lists) `vt_plist_slide_front` returns the pointers in order and then NULL. -/
theorem C09_plist_slide_front (p : Arr) (s : Spec.SeqState Ptr) (h : PlHolds p s) :
    (∀ hi : p.slider < s.elems.length,
      Plist.slideFront p = .ok ({ p with slider := p.slider + 1 }, s.elems[p.slider])) ∧
    (s.elems.length ≤ p.slider → Plist.slideFront p = .ok ({ p with slider := 0 }, 0)) := by
  have hlen := h.len
  have hlt := h.wf.lenlt
  constructor
  · intro hi
    have hx : p.elems[p.slider]? = some (ptrBytes s.elems[p.slider]) := by
      rw [h.elems, List.getElem?_map, List.getElem?_eq_getElem hi]; rfl
    have e0 : wadd p.slider 1 = p.slider + 1 := wadd_eq (by omega)
    have e1 : wsub (p.slider + 1) 1 = p.slider := wsub_eq (by omega) (by omega)
    have : p.slider < p.len := by omega
    simp [Plist.slideFront, this, e0, e1, loadPtr_elem h.wf h.es hx]
  · intro hi
    have : ¬ p.slider < p.len := by omega
    simp [Plist.slideFront, this]

end Vita
