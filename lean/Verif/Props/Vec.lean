import Verif.Lemmas.VecStep
/-!
# Properties C01-C12: vectors
-/

namespace Vita
open Out

seal wadd wsub wmul

/-! ### A concrete environment for the examples -/

/-- A debug build on a machine with 2^40 bytes. -/
def exE : Env := ⟨true, fun n => decide (n < 2 ^ 40), false, by
  intro n h; simp at h; omega⟩

/-- A vector of 4-byte elements holding two of three possible elements. -/
def exV : Arr := ⟨2, 3, 4, 0, false,
  [some 1, some 0, some 0, some 0, some 2, some 0, some 0, some 0, some 9, none, none, none]⟩

example : exV.WF := by decide +kernel
example : exV.elems = [[some 1, some 0, some 0, some 0], [some 2, some 0, some 0, some 0]] := by decide +kernel

/-! ### C01, C02: histories -/

theorem runVec_spec {E : Env} (hD : E.debug = true) (hI : E.isoMemcpy = false) (cs : List VecCall) :
    ∀ (v : Arr), v.WF → (∀ c ∈ cs, c.Fits v.elsize) →
    Spec.SeqRun E v.elsize v.elsize v.abs (cs.map (VecCall.toOp v.elsize)) ((runVec E v cs).mapOk Arr.abs) ∧
    (∀ v', runVec E v cs = .ok v' → v'.WF ∧ v.Same v') ∧ (runVec E v cs).Safe := by
  induction cs with
  | nil =>
    intro v h _
    exact ⟨.nil _, by intro v' hv; cases hv; exact ⟨h, rfl, rfl, rfl⟩, by simp [runVec, Out.Safe]⟩
  | cons c cs ih =>
    intro v h hf
    obtain ⟨h1, h2, h3⟩ := vecStep hD hI h c (hf c (by simp))
    cases hr : c.run E v with
    | ok v1 =>
      obtain ⟨w1, w2⟩ := h2 v1 hr
      rw [hr] at h1
      have es1 : v1.elsize = v.elsize := w2.1
      obtain ⟨g1, g2, g3⟩ := ih v1 w1 (by intro c hc; rw [es1]; exact hf c (by simp [hc]))
      have e : runVec E v (c :: cs) = runVec E v1 cs := by simp [runVec, hr]
      rw [e]
      refine ⟨?_, ?_, g3⟩
      · rw [es1] at g1
        exact .cons h1 g1
      · intro v' hv'
        obtain ⟨a, b1, b2, b3⟩ := g2 v' hv'
        exact ⟨a, b1.trans w2.1, b2.trans w2.2.1, b3.trans w2.2.2⟩
    | exit w =>
      have e : runVec E v (c :: cs) = .exit w := by simp [runVec, hr]
      rw [e]
      rw [hr] at h1
      exact ⟨.stop h1, by simp, by simp [Out.Safe]⟩
    | ub => exact absurd hr h3.1
    | fuel => exact absurd hr h3.2

/-- **C01** A vector created with `n` slots of `es` bytes behaves, under every history of calls, as
the abstract sequence `Spec.SeqRun` (debug build, no size overflow). -/
theorem C01_vec_refines_sequence (E : Env) (hD : E.debug = true) (hI : E.isoMemcpy = false)
    (n es : Nat) (hn : 0 < n) (hes : 0 < es) (hsz : n * es < 2 ^ 64)
    (cs : List VecCall) (hf : ∀ c ∈ cs, c.Fits es) :
    (E.allocOk arrStructSize = true ∧ E.allocOk (n * es) = true →
      Spec.SeqRun E es es ⟨[], n⟩ (cs.map (VecCall.toOp es))
        ((Vec.create E n es >>= fun v => runVec E v cs).mapOk Arr.abs)) ∧
    (E.allocOk arrStructSize = false ∨ E.allocOk (n * es) = false →
      (Vec.create E n es >>= fun v => runVec E v cs) = .exit .alloc) := by
  have e2 : wmul n es = n * es := wmul_eq hsz
  have hp : 0 < n * es := Nat.mul_pos hn hes
  constructor
  · rintro ⟨h1, h2⟩
    have hb := E.lim _ h2
    have hc : Vec.create E n es = .ok ⟨0, n, es, 0, false, List.replicate (n * es) (some 0)⟩ := by
      simp [Vec.create, hn, hes, e2, vtCalloc_ok hp h2, vtCalloc_ok (by decide) h1]
    have hw : (⟨0, n, es, 0, false, List.replicate (n * es) (some 0)⟩ : Arr).WF :=
      ⟨by simp, by simp, hes, hn, hb⟩
    rw [hc]
    exact (runVec_spec hD hI cs _ hw hf).1
  · intro h
    cases h1 : E.allocOk arrStructSize with
    | false => simp [Vec.create, hn, hes, vtCalloc_fail (by decide) h1]
    | true =>
      rcases h with h | h
      · rw [h1] at h; cases h
      · simp [Vec.create, hn, hes, e2, vtCalloc_fail hp h, vtCalloc_ok (by decide) h1]

/-- **C01** What `vt_vec_get` and `vt_vec_len` report are the elements of the abstract state. -/
theorem C01_get_observes_elements (E : Env) (hD : E.debug = true) (v : Arr) (h : v.WF) (i : Nat) :
    Vec.length v = v.elems.length ∧
    Vec.get E v i = match v.elems[i]? with
      | some x => .ok x
      | none => .exit .dbgAssert := by
  have hl : v.elems.length = v.len := by simp [Arr.elems]
  refine ⟨hl.symm, ?_⟩
  by_cases hi : i < v.len
  · have hlt := h.lenlt
    have i0 : (i + 1) * v.elsize ≤ v.len * v.elsize := Nat.mul_le_mul_right _ (by omega)
    have i2 : v.len * v.elsize ≤ v.cap * v.elsize := Nat.mul_le_mul_right _ h.le
    rw [Nat.add_mul, Nat.one_mul] at i0
    have e3 : wmul i v.elsize = i * v.elsize := wmul_eq (by omega)
    have hm := h.mem
    have : v.elems[i]? = some ((v.mem.drop (i * v.elsize)).take v.elsize) := by
      rw [Arr.elems, chunks_getElem?, if_pos hi]
    rw [this]
    simp [Vec.get, Vec.arrGet, hi, e3, readN_ok (show i * v.elsize + v.elsize ≤ v.mem.length by omega)]
  · have : v.elems[i]? = none := by rw [Arr.elems, chunks_getElem?, if_neg hi]
    rw [this]
    simp [Vec.get, hi, dassert_false hD]

example : (Vec.create exE 1 1 >>= fun v => runVec exE v
      [.pushBack [some 7], .pushBack [some 8], .pushFront [some 6], .insert [some 5] 1, .removeFast 0,
       .set [some 1] 0, .pop, .shrink]).mapOk (fun v => (v.elems, v.cap))
    = .ok ([[some 1], [some 5]], 2) := by decide +kernel

/-- **C02** No history of calls reaches undefined behaviour, and after every history the length is at
most the capacity and the buffer holds exactly `capacity * elsize` bytes. -/
theorem C02_vec_memory_safe (E : Env) (hD : E.debug = true) (hI : E.isoMemcpy = false)
    (n es : Nat) (hsz : n * es < 2 ^ 64)
    (cs : List VecCall) (hf : ∀ c ∈ cs, c.Fits es) :
    (Vec.create E n es >>= fun v => runVec E v cs).Safe ∧
    ∀ v, (Vec.create E n es >>= fun v => runVec E v cs) = .ok v →
      v.len ≤ v.cap ∧ v.mem.length = v.cap * v.elsize ∧ v.elsize = es := by
  by_cases hn : 0 < n
  · by_cases hes : 0 < es
    · have e2 : wmul n es = n * es := wmul_eq hsz
      have hp : 0 < n * es := Nat.mul_pos hn hes
      cases h1 : E.allocOk arrStructSize with
      | false => simp [Vec.create, hn, hes, vtCalloc_fail (by decide) h1, Out.Safe]
      | true =>
        cases h2 : E.allocOk (n * es) with
        | false => simp [Vec.create, hn, hes, e2, vtCalloc_fail hp h2, vtCalloc_ok (by decide) h1, Out.Safe]
        | true =>
          have hb := E.lim _ h2
          have hc : Vec.create E n es = .ok ⟨0, n, es, 0, false, List.replicate (n * es) (some 0)⟩ := by
            simp [Vec.create, hn, hes, e2, vtCalloc_ok hp h2, vtCalloc_ok (by decide) h1]
          have hw : (⟨0, n, es, 0, false, List.replicate (n * es) (some 0)⟩ : Arr).WF :=
            ⟨by simp, by simp, hes, hn, hb⟩
          rw [hc, bind_ok]
          obtain ⟨_, g2, g3⟩ := runVec_spec hD hI cs _ hw hf
          refine ⟨g3, ?_⟩
          intro v hv
          obtain ⟨w, s⟩ := g2 v hv
          exact ⟨w.le, w.mem, s.1⟩
    · simp [Vec.create, hn, hes, dassert_false hD, Out.Safe]
  · simp [Vec.create, hn, dassert_false hD, Out.Safe]

/-- **C02** (observers) Reading, popping and iterating forwards never leave the buffer either, for any index (the other observers:
`C02_more_reads_safe_partial`). -/
theorem C02_vec_reads_safe (E : Env) (hD : E.debug = true) (v : Arr) (h : v.WF) (i : Nat) :
    (Vec.get E v i).Safe ∧ (Vec.popGet v).Safe ∧ (Slide.front v).Safe := by
  have hlt := h.lenlt
  have i2 : v.len * v.elsize ≤ v.cap * v.elsize := Nat.mul_le_mul_right _ h.le
  have hm := h.mem
  refine ⟨?_, ?_, ?_⟩
  · rw [(C01_get_observes_elements E hD v h i).2]
    split <;> simp [Out.Safe]
  · unfold Vec.popGet
    split
    · have i0 : (v.len - 1 + 1) * v.elsize = v.len * v.elsize := mulc (by omega)
      rw [Nat.add_mul, Nat.one_mul] at i0
      have e1 : wsub v.len 1 = v.len - 1 := wsub_eq (by omega) (by omega)
      have e2 : wmul (v.len - 1) v.elsize = (v.len - 1) * v.elsize := wmul_eq (by omega)
      simp only [e1, e2]
      rw [readN_ok (by omega)]
      simp [Out.Safe]
    · simp [Out.Safe]
  · unfold Slide.front
    split
    · have i0 : (v.slider + 1) * v.elsize ≤ v.len * v.elsize := Nat.mul_le_mul_right _ (by omega)
      rw [Nat.add_mul, Nat.one_mul] at i0
      have e0 : wadd v.slider 1 = v.slider + 1 := wadd_eq (by omega)
      have e1 : wsub (v.slider + 1) 1 = v.slider := wsub_eq (by omega) (by omega)
      have e2 : wmul v.slider v.elsize = v.slider * v.elsize := wmul_eq (by omega)
      simp only [e0, e1, e2]
      rw [readN_ok (by omega)]
      simp [Out.Safe]
    · simp [Out.Safe]

/-- **C02** (ISO remark) Under the literal ISO rule for `memcpy(p, p, n)`, removing the last element
with the fast strategy is undefined; this is why C01/C02 assume `isoMemcpy = false`. -/
theorem C02_fast_remove_last_self_copy (E : Env) (hI : E.isoMemcpy = true) (v : Arr) (h : v.WF)
    (h0 : 0 < v.len) (ha : E.allocOk v.elsize = true) :
    Vec.remove E v (v.len - 1) .fast = .ub := by
  have hlt := h.lenlt
  have i2 : v.len * v.elsize ≤ v.cap * v.elsize := Nat.mul_le_mul_right _ h.le
  have i0 : (v.len - 1 + 1) * v.elsize = v.len * v.elsize := mulc (by omega)
  rw [Nat.add_mul, Nat.one_mul] at i0
  have e1 : wsub v.len 1 = v.len - 1 := wsub_eq (by omega) (by omega)
  have e2 : wmul (v.len - 1) v.elsize = (v.len - 1) * v.elsize := wmul_eq (by omega)
  have hm := h.mem
  have hes := h.es
  have hc : cassert E (v.elsize != 0) = .ok () := by
    have : v.elsize ≠ 0 := by omega
    simp [cassert, this]
  have hr := readN_ok (show (v.len - 1) * v.elsize + v.elsize ≤ v.mem.length by omega)
  have hlt' : v.len - 1 < v.len := by omega
  simp [Vec.remove, Vec.removeMem, hlt', e1, e2, gswap, hc, vtCalloc_ok hes ha, hr, hI]

/-! ### C03: growth -/

/-- Push a list of values. -/
def pushAll (E : Env) : Arr → List Mem → Out Arr
  | v, [] => .ok v
  | v, x :: xs => Vec.pushBack E v x >>= fun v' => pushAll E v' xs

/-- Number of old elements moved by reallocations while pushing `k` values onto `len` of `cap`
slots, where a full buffer triples: the cost model of C03. -/
def movedBy : (len cap k : Nat) → Nat
  | _, _, 0 => 0
  | len, cap, k + 1 => if len < cap then movedBy (len + 1) cap k else len + movedBy (len + 1) (3 * cap) k

/-- **C03** A push changes the capacity only when the vector is full, and then triples it. -/
theorem C03_push_capacity (E : Env) (v v' : Arr) (h : v.WF) (val : Mem) (hv : v.elsize ≤ val.length)
    (hr : Vec.pushBack E v val = .ok v') :
    v'.elems = v.elems ++ [val.take v.elsize] ∧
    v'.cap = (if v.len = v.cap then 3 * v.cap else v.cap) ∧ v.cap ≤ v'.cap ∧
    (v.len < v.cap → v'.mem.length = v.mem.length) := by
  obtain ⟨h1, h2⟩ := pushBack_spec (E := E) h (val := val) hv
  rw [hr] at h1
  have hle := h.le
  have hl : v.elems.length = v.len := by simp [Arr.elems]
  obtain ⟨w, s⟩ := h2 v' hr
  simp only [mapOk, Spec.withRoom, Arr.abs, hl] at h1
  by_cases hlt : v.len < v.cap
  · rw [if_pos hlt] at h1
    have hne : v.len ≠ v.cap := by omega
    injection h1 with h1
    injection h1 with a b
    refine ⟨a, by simp [hne, b], by omega, fun _ => ?_⟩
    rw [w.mem, h.mem, b, s.1]
  · rw [if_neg hlt] at h1
    have he : v.len = v.cap := by omega
    cases hal : E.allocOk (3 * v.cap * v.elsize) with
    | true =>
      simp only [hal, if_true] at h1
      injection h1 with h1
      injection h1 with a b
      exact ⟨a, by simp [he, b], by omega, fun hc => absurd hc hlt⟩
    | false => simp [hal] at h1

theorem pushAll_wf {E : Env} (xs : List Mem) : ∀ (v v' : Arr), v.WF → (∀ x ∈ xs, v.elsize ≤ x.length) →
    pushAll E v xs = .ok v' → v'.WF ∧ v'.elems = v.elems ++ xs.map (·.take v.elsize) ∧
      v'.elsize = v.elsize ∧
      (∃ r, v'.cap = v.cap * 3 ^ r ∧ (r = 0 ∨ v.cap * 3 ^ (r - 1) < v.len + xs.length)) := by
  induction xs with
  | nil =>
    intro v v' h _ hr
    cases hr
    exact ⟨h, by simp, rfl, 0, by simp, Or.inl rfl⟩
  | cons x xs ih =>
    intro v v' h hf hr
    simp only [pushAll, bind_eq_ok] at hr
    obtain ⟨v1, hp, hr⟩ := hr
    obtain ⟨w1, s1⟩ := (pushBack_spec (E := E) h (val := x) (hf x (by simp))).2 v1 hp
    obtain ⟨c1, c2, c3, _⟩ := C03_push_capacity E v v1 h x (hf x (by simp)) hp
    obtain ⟨g1, g2, g3, r, g4, g5⟩ := ih v1 v' w1 (by intro y hy; rw [s1.1]; exact hf y (by simp [hy])) hr
    have hl1 : v1.len = v.len + 1 := by
      have := congrArg List.length c1
      simpa [Arr.elems] using this
    refine ⟨g1, ?_, by rw [g3, s1.1], ?_⟩
    · rw [g2, c1, s1.1]; simp
    · have hle := h.le
      by_cases hfull : v.len = v.cap
      · rw [if_pos hfull] at c2
        refine ⟨r + 1, ?_, Or.inr ?_⟩
        · rw [g4, c2, Nat.pow_succ]; ac_rfl
        · rcases g5 with rfl | g5
          · simp; omega
          · cases r with
            | zero => simp; omega
            | succ r =>
              rw [c2] at g5
              simp only [Nat.add_sub_cancel] at g5 ⊢
              simp only [List.length_cons]
              have : v.cap * 3 ^ (r + 1) = 3 * v.cap * 3 ^ r := by
                rw [Nat.pow_succ]; ac_rfl
              omega
      · rw [if_neg hfull] at c2
        refine ⟨r, by rw [g4, c2], ?_⟩
        rcases g5 with rfl | g5
        · exact Or.inl rfl
        · right; rw [c2] at g5; simp only [List.length_cons]; omega

/-- **C03** After pushing any list of values onto a fresh vector with `c` slots, the capacity is
`c * 3^r` where `r` (the number of reallocations) is as small as possible: `r = 0`, or
`c * 3^(r-1)` slots would not have been enough.  All pushed values are there, in order. -/
theorem C03_growth_is_logarithmic (E : Env) (v v' : Arr) (h : v.WF) (h0 : v.len = 0) (xs : List Mem)
    (hf : ∀ x ∈ xs, v.elsize ≤ x.length) (hr : pushAll E v xs = .ok v') :
    v'.elems = xs.map (·.take v.elsize) ∧
    ∃ r, v'.cap = v.cap * 3 ^ r ∧ xs.length ≤ v'.cap ∧ (r = 0 ∨ v.cap * 3 ^ (r - 1) < xs.length) := by
  obtain ⟨g1, g2, g3, r, g4, g5⟩ := pushAll_wf xs v v' h hf hr
  have he : v.elems = [] := by simp [Arr.elems, h0, chunks]
  rw [he] at g2
  refine ⟨by simpa using g2, r, g4, ?_, ?_⟩
  · have hl := congrArg List.length g2
    have := g1.le
    simp [Arr.elems] at hl
    omega
  · rw [h0, Nat.zero_add] at g5; exact g5

theorem movedBy_bound (k : Nat) : ∀ (len cap : Nat), len ≤ cap → 0 < cap →
    2 * movedBy len cap k + cap ≤ max cap (3 * (len + k)) := by
  induction k with
  | zero => intro len cap h _; simp [movedBy]; omega
  | succ k ih =>
    intro len cap h h0
    rw [movedBy]
    split
    · have := ih (len + 1) cap (by omega) h0
      omega
    · have := ih (len + 1) (3 * cap) (by omega) (by omega)
      omega

/-- **C03** The total number of elements moved by reallocations during `k` pushes onto a fresh vector
is at most 1.5 `k` (amortised constant cost per push). -/
theorem C03_amortised_cost (c k : Nat) (hc : 0 < c) : 2 * movedBy 0 c k ≤ 3 * k := by
  have := movedBy_bound k 0 c (by omega) hc
  omega

/-- **C03** (link) `movedBy` follows the model: each push of the model makes the capacity step that
`movedBy` charges for, so the final capacity and the cost are about the same run. -/
theorem C03_cost_model_faithful (E : Env) (v v' : Arr) (h : v.WF) (val : Mem) (hv : v.elsize ≤ val.length)
    (hr : Vec.pushBack E v val = .ok v') (k : Nat) :
    movedBy v.len v.cap (k + 1)
      = (if v'.cap = v.cap then 0 else v.len) + movedBy v'.len v'.cap k := by
  obtain ⟨c1, c2, c3, _⟩ := C03_push_capacity E v v' h val hv hr
  have hl1 : v'.len = v.len + 1 := by
    have := congrArg List.length c1
    simpa [Arr.elems] using this
  have hle := h.le
  have hpos := h.cap
  rw [movedBy]
  by_cases hfull : v.len = v.cap
  · rw [if_pos hfull] at c2
    rw [if_neg (by omega), if_neg (by omega), hl1, c2]
  · rw [if_neg hfull] at c2
    rw [if_pos (by omega), if_pos c2, hl1, c2]; simp

example : (pushAll exE { exV with len := 0 } [exV.mem, exV.mem, exV.mem, exV.mem]).mapOk (·.cap) = .ok 9 := by decide +kernel

/-! ### C04-C06: element access -/

/-- **C04** `set` changes exactly the chosen element, and neither length nor capacity. -/
theorem C04_set_get_frame (E : Env) (hD : E.debug = true) (v : Arr) (h : v.WF) (val : Mem)
    (hv : v.elsize ≤ val.length) (i : Nat) (hi : i < Vec.length v) :
    ∃ v', Vec.set E v val i = .ok v' ∧ Vec.length v' = Vec.length v ∧ v'.cap = v.cap ∧
      Vec.get E v' i = .ok (val.take v.elsize) ∧
      ∀ j, j ≠ i → Vec.get E v' j = Vec.get E v j := by
  obtain ⟨v', h1, h2, h3, h4⟩ := set_spec (E := E) h hv hi
  have he : v'.elems = v.elems.set i (val.take v.elsize) := congrArg Spec.SeqState.elems h2
  have hc : v'.cap = v.cap := congrArg Spec.SeqState.cap h2
  have hl : v.elems.length = v.len := by simp [Arr.elems]
  have hl' : v'.len = v.len := by
    have := congrArg List.length he
    simpa [Arr.elems] using this
  refine ⟨v', h1, hl', hc, ?_, ?_⟩
  · rw [(C01_get_observes_elements E hD v' h3 i).2, he, List.getElem?_set]
    have : i < v.elems.length := by rw [hl]; exact hi
    simp [this]
  · intro j hj
    rw [(C01_get_observes_elements E hD v' h3 j).2, he, List.getElem?_set,
      (C01_get_observes_elements E hD v h j).2]
    simp [Ne.symm hj]

/-- **C05** Stable removal: the old elements without the `i`-th, in order. -/
theorem C05_remove_stable (E : Env) (v : Arr) (h : v.WF) (i : Nat) (hi : i < Vec.length v) :
    ∃ v', Vec.remove E v i .stable = .ok v' ∧ v'.elems = v.elems.take i ++ v.elems.drop (i + 1) ∧
      v'.cap = v.cap ∧ v'.WF ∧ ∃ x, v.elems[i]? = some x ∧ v.elems.Perm (x :: v'.elems) := by
  obtain ⟨v', h1, h2, h3, _⟩ := removeStable_spec (E := E) h hi
  have he : v'.elems = Spec.removeAt v.elems i := congrArg Spec.SeqState.elems h2
  have hl : v.elems.length = v.len := by simp [Arr.elems]
  have hi' : i < v.elems.length := by rw [hl]; exact hi
  refine ⟨v', h1, he, congrArg Spec.SeqState.cap h2, h3, v.elems[i], List.getElem?_eq_getElem hi', ?_⟩
  rw [he, Spec.removeAt]
  have : v.elems = v.elems.take i ++ v.elems[i] :: v.elems.drop (i + 1) := by
    rw [List.getElem_cons_drop, List.take_append_drop]
  conv => lhs; rw [this]
  exact List.perm_middle

/-- **C05** Fast removal: the `i`-th element is replaced by the last one, which disappears from the
end; all others stay in place. -/
theorem C05_remove_fast (E : Env) (hI : E.isoMemcpy = false) (v : Arr) (h : v.WF) (i : Nat)
    (hi : i < Vec.length v) (ha : E.allocOk v.elsize = true) :
    ∃ v', Vec.remove E v i .fast = .ok v' ∧ v'.cap = v.cap ∧ v'.WF ∧
      v'.elems.length + 1 = v.elems.length ∧
      (∀ j, j < v'.elems.length → j ≠ i → v'.elems[j]? = v.elems[j]?) ∧
      (i < v'.elems.length → v'.elems[i]? = v.elems.getLast?) ∧
      ∃ x, v.elems[i]? = some x ∧ v.elems.Perm (x :: v'.elems) := by
  obtain ⟨v', h1, h2, h3, _⟩ := removeFast_spec hI h hi ha
  have he : v'.elems = Spec.swapRemove v.elems i := congrArg Spec.SeqState.elems h2
  have hl : v.elems.length = v.len := by simp [Arr.elems]
  have hi' : i < v.elems.length := by rw [hl]; exact hi
  refine ⟨v', h1, congrArg Spec.SeqState.cap h2, h3, ?_⟩
  rw [he]
  generalize v.elems = l at hi'
  have hne : l ≠ [] := by intro hc; simp [hc] at hi'
  have hlast : l.getLast? = some (l.getLast hne) := List.getLast?_eq_some_getLast hne
  have hlen : (Spec.swapRemove l i).length = l.length - 1 := by simp [Spec.swapRemove, hlast]
  refine ⟨by omega, ?_, ?_, l[i], List.getElem?_eq_getElem hi', ?_⟩
  · intro j hj hji
    simp only [Spec.swapRemove, hlast]
    rw [List.getElem?_dropLast, List.length_set, if_pos (by omega), List.getElem?_set, if_neg (Ne.symm hji)]
  · intro hj
    simp only [Spec.swapRemove, hlast]
    rw [List.getElem?_dropLast, List.length_set, if_pos (by omega), List.getElem?_set]
    simp [hi']
  · by_cases hq : i = l.length - 1
    · rw [swapRemove_last hne i hq]
      have e : l = l.dropLast ++ [l.getLast hne] := (List.dropLast_concat_getLast hne).symm
      have : l[i] = l.getLast hne := by rw [List.getLast_eq_getElem]; congr 1
      rw [this]
      conv => lhs; rw [e]
      exact List.perm_append_comm
    · have e : l = l.dropLast ++ [l.getLast hne] := (List.dropLast_concat_getLast hne).symm
      have hd : i < l.dropLast.length := by simp; omega
      have e2 : l.dropLast = l.dropLast.take i ++ l.dropLast[i] :: l.dropLast.drop (i+1) := by
        rw [List.getElem_cons_drop, List.take_append_drop]
      have t2 : l.dropLast[i] = l[i] := by simp
      rw [t2] at e2
      have e3 : l = l.dropLast.take i ++ [l[i]] ++ l.dropLast.drop (i+1) ++ [l.getLast hne] := by
        rw [e2] at e
        rw [List.append_assoc (l.dropLast.take i)]
        exact e
      generalize l[i] = x at e3 ⊢
      have hal : (l.dropLast.take i).length = i := by simp; omega
      generalize l.dropLast.take i = a at e3 hal
      generalize l.dropLast.drop (i+1) = b at e3
      generalize l.getLast hne = y at e3
      rw [e3, ← hal, swapRemove_inner]
      simp only [List.append_assoc, List.singleton_append]
      refine List.perm_middle.trans (List.Perm.cons _ ?_)
      exact List.Perm.append_left _ (List.perm_append_comm (l₁ := b) (l₂ := [y]))

/-- **C05** The two strategies leave the same multiset of elements. -/
theorem C05_strategies_agree_up_to_order (E : Env) (hI : E.isoMemcpy = false) (v : Arr) (h : v.WF) (i : Nat)
    (hi : i < Vec.length v) (ha : E.allocOk v.elsize = true) :
    ∃ a b, Vec.remove E v i .stable = .ok a ∧ Vec.remove E v i .fast = .ok b ∧ a.elems.Perm b.elems := by
  obtain ⟨a, a1, _, _, _, x, a5, a6⟩ := C05_remove_stable E v h i hi
  obtain ⟨b, b1, _, _, _, _, _, y, b5, b6⟩ := C05_remove_fast E hI v h i hi ha
  rw [a5] at b5
  cases b5
  exact ⟨a, b, a1, b1, List.Perm.cons_inv (a6.symm.trans b6)⟩

example : (Vec.remove exE exV 0 .fast).mapOk Arr.elems = .ok [[some 2, some 0, some 0, some 0]] := by decide +kernel

theorem popGet_spec {v : Arr} (h : v.WF) (h0 : 0 < v.len) :
    ∃ v', Vec.popGet v = .ok (v', v.elems.getLast?) ∧ v'.elems = v.elems.dropLast ∧ v'.cap = v.cap ∧
      v'.WF ∧ v'.len = v.len - 1 := by
  have hlt := h.lenlt
  have hm := h.mem
  have hl : v.elems.length = v.len := by simp [Arr.elems]
  have i2 : v.len * v.elsize ≤ v.cap * v.elsize := Nat.mul_le_mul_right _ h.le
  have i0 : (v.len - 1 + 1) * v.elsize = v.len * v.elsize := mulc (by omega)
  rw [Nat.add_mul, Nat.one_mul] at i0
  have e1 : wsub v.len 1 = v.len - 1 := wsub_eq (by omega) (by omega)
  have e2 : wmul (v.len - 1) v.elsize = (v.len - 1) * v.elsize := wmul_eq (by omega)
  obtain ⟨w1, w2⟩ := shortened h (k := v.len - 1) (by omega)
  refine ⟨{ v with len := v.len - 1 }, ?_, ?_, rfl, w1, rfl⟩
  · have hlast : v.elems.getLast? = some ((v.mem.drop ((v.len - 1) * v.elsize)).take v.elsize) := by
      rw [List.getLast?_eq_getElem?, hl, Arr.elems, chunks_getElem?, if_pos (by omega)]
    rw [hlast]
    simp [Vec.popGet, h0, e1, e2, readN_ok (show (v.len - 1) * v.elsize + v.elsize ≤ v.mem.length by omega)]
  · rw [w2, List.dropLast_eq_take, hl]

/-- **C06** Push then pop gives the pushed value back and restores the elements. -/
theorem C06_push_pop (E : Env) (v v1 : Arr) (h : v.WF) (val : Mem) (hv : v.elsize ≤ val.length)
    (hr : Vec.pushBack E v val = .ok v1) :
    ∃ v2, Vec.popGet v1 = .ok (v2, some (val.take v.elsize)) ∧ v2.elems = v.elems ∧
      Vec.length v2 = Vec.length v ∧ (Vec.pop v1).elems = v.elems := by
  obtain ⟨w1, s1⟩ := (pushBack_spec (E := E) h (val := val) hv).2 v1 hr
  obtain ⟨c1, _⟩ := C03_push_capacity E v v1 h val hv hr
  have hl1 : v1.len = v.len + 1 := by
    have := congrArg List.length c1
    simpa [Arr.elems] using this
  obtain ⟨v2, p1, p2, p3, p4, p5⟩ := popGet_spec w1 (by omega)
  refine ⟨v2, ?_, ?_, ?_, ?_⟩
  · rw [p1, c1, List.getLast?_concat]
  · rw [p2, c1, List.dropLast_concat]
  · simp [Vec.length, p5, hl1]
  · have := congrArg Spec.SeqState.elems (pop_spec w1).1
    simp only [Arr.abs] at this
    rw [this, c1, List.dropLast_concat]

/-- **C06** Popping an empty vector: unchanged, NULL, or 0 for the typed variants. -/
theorem C06_pop_empty (v : Arr) (h0 : Vec.length v = 0) (w : Nat) :
    Vec.pop v = v ∧ Vec.popGet v = .ok (v, none) ∧ Vec.popGetT v w = .ok (v, 0) := by
  have : v.len = 0 := h0
  simp [Vec.pop, Vec.popGet, Vec.popGetT, this]

/-! ### C07: search -/

/-- All bytes have a defined value. -/
def Defined (l : List Byte) : Prop := ∀ b ∈ l, b ≠ none

theorem bytesEq_spec : ∀ (a b : List Byte), Defined a → Defined b → a.length = b.length →
    bytesEq a b = .ok (decide (a = b)) := by
  intro a
  induction a with
  | nil => intro b _ _ hl; cases b <;> simp_all [bytesEq]
  | cons x a ih =>
    intro b ha hb hl
    cases b with
    | nil => simp at hl
    | cons y b =>
      cases x with
      | none => exact absurd rfl (ha none (by simp))
      | some x =>
        cases y with
        | none => exact absurd rfl (hb none (by simp))
        | some y =>
          simp only [bytesEq]
          have hl' : a.length = b.length := by simpa using hl
          rw [ih b (fun z hz => ha z (by simp [hz])) (fun z hz => hb z (by simp [hz])) hl']
          by_cases hxy : x = y
          · simp [hxy]
          · simp [hxy]

theorem canFindLoop_spec {v : Arr} (h : v.WF) (hd : ∀ x ∈ v.elems, Defined x) {x : List Byte}
    (hx : Defined x) (hxl : x.length = v.elsize) (k : Nat) : ∀ i, i + k = v.len →
    (∀ j, j < i → v.elems[j]? ≠ some x) →
    ∃ r, Vec.canFindLoop v x k i = .ok r ∧ Spec.IsFirstIndex v.elems x r := by
  have hl : v.elems.length = v.len := by simp [Arr.elems]
  induction k with
  | zero =>
    intro i hi hbefore
    refine ⟨-1, by simp [Vec.canFindLoop], Or.inl ⟨rfl, ?_⟩⟩
    intro hmem
    obtain ⟨j, hj, hje⟩ := List.getElem_of_mem hmem
    exact hbefore j (by omega) (by rw [List.getElem?_eq_getElem hj, hje])
  | succ k ih =>
    intro i hi hbefore
    have hlt := h.lenlt
    have hil : i < v.len := by omega
    have i0 : (i + 1) * v.elsize ≤ v.len * v.elsize := Nat.mul_le_mul_right _ (by omega)
    have i2 : v.len * v.elsize ≤ v.cap * v.elsize := Nat.mul_le_mul_right _ h.le
    rw [Nat.add_mul, Nat.one_mul] at i0
    have e3 : wmul i v.elsize = i * v.elsize := wmul_eq (by omega)
    have hm := h.mem
    have hg : v.elems[i]? = some ((v.mem.drop (i * v.elsize)).take v.elsize) := by
      rw [Arr.elems, chunks_getElem?, if_pos hil]
    have hmem := List.mem_of_getElem? hg
    have hlen : ((v.mem.drop (i * v.elsize)).take v.elsize).length = v.elsize := by simp; omega
    rw [Vec.canFindLoop, e3, readN_ok (by omega)]
    simp only [bind_ok]
    rw [bytesEq_spec _ _ (hd _ hmem) hx (by omega)]
    simp only [bind_ok]
    by_cases heq : (v.mem.drop (i * v.elsize)).take v.elsize = x
    · refine ⟨i, by simp [heq], Or.inr ⟨i, rfl, by rw [hg, heq], hbefore⟩⟩
    · simp only [heq, decide_false, Bool.false_eq_true, if_false]
      refine ih (i + 1) (by omega) ?_
      intro j hj
      by_cases hji : j = i
      · subst hji; rw [hg]; intro hc; exact heq (Option.some.inj hc)
      · exact hbefore j (by omega)

/-- **C07** `vt_vec_can_find` returns the first index holding the searched bytes, or -1 exactly when
there is none. -/
theorem C07_can_find (v : Arr) (h : v.WF) (hd : ∀ x ∈ v.elems, Defined x) (val : Mem)
    (hv : v.elsize ≤ val.length) (hdv : Defined (val.take v.elsize)) :
    ∃ r, Vec.canFind v val = .ok r ∧ Spec.IsFirstIndex v.elems (val.take v.elsize) r := by
  by_cases h0 : v.len = 0
  · have he : v.elems = [] := by simp [Arr.elems, h0, chunks]
    exact ⟨-1, by simp [Vec.canFind, h0], Or.inl ⟨rfl, by simp [he]⟩⟩
  · have hvl : (val.take v.elsize).length = v.elsize := by simp; omega
    obtain ⟨r, h1, h2⟩ := canFindLoop_spec h hd hdv hvl v.len 0 (by omega) (by omega)
    refine ⟨r, ?_, h2⟩
    simp [Vec.canFind, h0, readN_ok (show 0 + v.elsize ≤ val.length by omega), h1]

example : Vec.canFind exV [some 2, some 0, some 0, some 0] = .ok 1 := by decide +kernel
example : (∀ x ∈ exV.elems, Defined x) := by unfold Defined; decide

/-! ### C08: duplication -/

/-- **C08** (partial: non-empty vectors) A copy has the same elements and exactly as many slots. -/
theorem C08_dup_partial (E : Env) (v : Arr) (h : v.WF) (h0 : 0 < Vec.length v)
    (ha : E.allocOk arrStructSize = true) (hb : E.allocOk (v.len * v.elsize) = true) :
    ∃ d, Vec.dup E v = .ok d ∧ d.elems = v.elems ∧ d.cap = Vec.length v ∧ d.elsize = v.elsize ∧ d.WF := by
  have h0' : 0 < v.len := h0
  obtain ⟨rest, hm, hr, hes, hl⟩ := h.split
  have hlt := h.lenlt
  have i2 : v.len * v.elsize ≤ v.cap * v.elsize := Nat.mul_le_mul_right _ h.le
  have hmem := h.mem
  have e2 : wmul v.len v.elsize = v.len * v.elsize := wmul_eq (by omega)
  have hp : 0 < v.len * v.elsize := Nat.mul_pos h0 h.es
  have hfl : v.elems.flatten.length = v.len * v.elsize := by rw [flatten_length _ _ hes, hl]
  have hrd : readN v.mem 0 (v.len * v.elsize) = .ok v.elems.flatten := by
    rw [readN_ok (by omega), List.drop_zero, hm, ← hfl]; simp
  have hwr : writeN (List.replicate (v.len * v.elsize) (some 0)) 0 v.elems.flatten = .ok v.elems.flatten := by
    rw [writeN_ok (by simp [hfl])]; simp [hfl]
  refine ⟨⟨v.len, v.len, v.elsize, 0, false, v.elems.flatten⟩, ?_, ?_⟩
  · simp [Vec.dup, Vec.create, h0', h.es, e2, vtCalloc_ok (by decide) ha, vtCalloc_ok hp hb, hrd, hwr]
  · have key := Arr.WF.mk' (v := ⟨v.len, v.len, v.elsize, 0, false, v.elems.flatten⟩) (l := v.elems) (rest := [])
      (by simp) hes (by simp [hl]) (Nat.le_refl _) (by simp) h.es h0 (by simp; omega)
    exact ⟨key.2, rfl, rfl, key.1⟩

/-- **C08** (refutation of the empty case) Duplicating an empty vector terminates the program. -/
theorem C08_dup_empty_exits (E : Env) (hD : E.debug = true) (v : Arr) (h0 : Vec.length v = 0) :
    Vec.dup E v = .exit .dbgAssert := by
  have : v.len = 0 := h0
  simp [Vec.dup, Vec.create, this, dassert_false hD]

/-! ### C09, C10: sliders -/

/-- The results of `k` consecutive calls of a slide function. -/
def slides (f : Arr → Out (Arr × Option (List Byte))) : Nat → Arr → Out (List (Option (List Byte)))
  | 0, _ => .ok []
  | k + 1, v => f v >>= fun r => slides f k r.1 >>= fun rs => .ok (r.2 :: rs)

theorem front_step {v : Arr} (h : v.WF) (hs : v.slider < v.len) :
    Slide.front v = .ok ({ v with slider := v.slider + 1 }, v.elems[v.slider]?) := by
  have hlt := h.lenlt
  have hm := h.mem
  have i2 : v.len * v.elsize ≤ v.cap * v.elsize := Nat.mul_le_mul_right _ h.le
  have i0 : (v.slider + 1) * v.elsize ≤ v.len * v.elsize := Nat.mul_le_mul_right _ (by omega)
  rw [Nat.add_mul, Nat.one_mul] at i0
  have e0 : wadd v.slider 1 = v.slider + 1 := wadd_eq (by omega)
  have e1 : wsub (v.slider + 1) 1 = v.slider := wsub_eq (by omega) (by omega)
  have e2 : wmul v.slider v.elsize = v.slider * v.elsize := wmul_eq (by omega)
  have hg : v.elems[v.slider]? = some ((v.mem.drop (v.slider * v.elsize)).take v.elsize) := by
    rw [Arr.elems, chunks_getElem?, if_pos hs]
  rw [hg]
  simp [Slide.front, hs, e0, e1, e2, readN_ok (show v.slider * v.elsize + v.elsize ≤ v.mem.length by omega)]

theorem front_end {v : Arr} (hs : ¬ v.slider < v.len) :
    Slide.front v = .ok ({ v with slider := 0 }, none) := by
  simp [Slide.front, hs]

theorem slides_front (k : Nat) : ∀ (v : Arr), v.WF → v.slider ≤ v.len →
    slides Slide.front k v
      = .ok ((List.range k).map (fun j => v.elems[(v.slider + j) % (v.len + 1)]?)) := by
  induction k with
  | zero => intro v _ _; simp [slides]
  | succ k ih =>
    intro v h hs
    have hel : v.elems.length = v.len := by simp [Arr.elems]
    rw [List.range_succ_eq_map, List.map_cons, List.map_map]
    by_cases hlt : v.slider < v.len
    · have w : ({ v with slider := v.slider + 1 } : Arr).WF := ⟨h.le, h.mem, h.es, h.cap, h.lim⟩
      simp only [slides, front_step h hlt, bind_ok]
      rw [ih _ w (by simp; omega)]
      simp only [bind_ok, Nat.add_zero, Nat.mod_eq_of_lt (show v.slider < v.len + 1 by omega)]
      congr 2
      apply List.map_congr_left
      intro j _
      show v.elems[_]? = _
      simp only [Function.comp]
      congr 2; omega
    · have e : v.slider = v.len := by omega
      have w : ({ v with slider := 0 } : Arr).WF := ⟨h.le, h.mem, h.es, h.cap, h.lim⟩
      simp only [slides, front_end hlt, bind_ok]
      rw [ih _ w (by simp)]
      have hn : v.elems[v.len]? = none := by rw [List.getElem?_eq_none]; omega
      simp only [bind_ok, Nat.add_zero, e, Nat.mod_eq_of_lt (show v.len < v.len + 1 by omega), hn]
      congr 2
      apply List.map_congr_left
      intro j _
      show v.elems[_]? = _
      simp only [Function.comp]
      rw [show v.len + Nat.succ j = j + (v.len + 1) by omega, Nat.add_mod_right, Nat.zero_add]

/-- **C09** From a reset slider, call number `j` (counting from 0) of `vt_array_slide_front` returns
element `j mod (n+1)` of the `n` elements, i.e. all elements in order, then NULL, and so on for ever;
the elements stay the same. -/
theorem C09_slide_front_periodic (v : Arr) (h : v.WF) (k : Nat) :
    slides Slide.front k (Slide.reset v)
      = .ok ((List.range k).map (fun j => v.elems[j % (Vec.length v + 1)]?)) := by
  have w : (Slide.reset v).WF := ⟨h.le, h.mem, h.es, h.cap, h.lim⟩
  have := slides_front k (Slide.reset v) w (by simp [Slide.reset])
  rw [this]
  simp [Slide.reset, Arr.elems, Vec.length]

/-- **C09** A slide call changes nothing but the slider. -/
theorem C09_slide_front_readonly (v v' : Arr) (r : Option (List Byte)) (hr : Slide.front v = .ok (v', r)) :
    v' = { v with slider := v'.slider } := by
  unfold Slide.front at hr
  split at hr
  · simp only [bind_eq_ok] at hr
    obtain ⟨bs, _, h2⟩ := hr
    cases h2; rfl
  · cases hr; rfl

example : slides Slide.front 5 exV = .ok [some [some 1, some 0, some 0, some 0],
    some [some 2, some 0, some 0, some 0], none, some [some 1, some 0, some 0, some 0],
    some [some 2, some 0, some 0, some 0]] := by decide +kernel

theorem back_step {v : Arr} (h : v.WF) (hs : v.slider + 2 < v.len) :
    Slide.back v = .ok ({ v with slider := v.slider + 1 }, v.elems[v.len - 3 - v.slider]?) := by
  have hlt := h.lenlt
  have hm := h.mem
  have i2 : v.len * v.elsize ≤ v.cap * v.elsize := Nat.mul_le_mul_right _ h.le
  have i0 : (v.len - 3 - v.slider + 1) * v.elsize ≤ v.len * v.elsize := Nat.mul_le_mul_right _ (by omega)
  rw [Nat.add_mul, Nat.one_mul] at i0
  have e0 : wadd v.slider 1 = v.slider + 1 := wadd_eq (by omega)
  have e1 : wsub v.len (v.slider + 1) = v.len - (v.slider + 1) := wsub_eq (by omega) (by omega)
  have e1' : wsub (v.len - (v.slider + 1)) 2 = v.len - 3 - v.slider := by
    rw [wsub_eq (by omega) (by omega)]; omega
  have e2 : wmul (v.len - 3 - v.slider) v.elsize = (v.len - 3 - v.slider) * v.elsize := wmul_eq (by omega)
  have hg : v.elems[v.len - 3 - v.slider]? = some ((v.mem.drop ((v.len - 3 - v.slider) * v.elsize)).take v.elsize) := by
    rw [Arr.elems, chunks_getElem?, if_pos (by omega)]
  have hs' : v.slider < v.len := by omega
  rw [hg]
  simp [Slide.back, hs', e0, e1, e1', e2, readN_ok (show (v.len - 3 - v.slider) * v.elsize + v.elsize ≤ v.mem.length by omega)]

theorem back_ub {v : Arr} (h : v.WF) (hs : v.slider < v.len) (hs2 : v.len ≤ v.slider + 2) :
    Slide.back v = .ub := by
  have hlt := h.lenlt
  have hm := h.mem
  have hlim := h.lim
  have hes := h.es
  have hesl : 1 * v.elsize ≤ v.cap * v.elsize := Nat.mul_le_mul_right _ h.cap
  have e0 : wadd v.slider 1 = v.slider + 1 := wadd_eq (by omega)
  have e1 : wsub v.len (v.slider + 1) = v.len - (v.slider + 1) := wsub_eq (by omega) (by omega)
  -- the wrapped index is -1 or -2 modulo 2^64
  obtain ⟨d, hd, hd2, e2⟩ : ∃ d, 1 ≤ d ∧ d ≤ 2 ∧ wsub (v.len - (v.slider + 1)) 2 = 2 ^ 64 - d := by
    refine ⟨2 - (v.len - (v.slider + 1)), by omega, by omega, ?_⟩
    unfold wsub
    omega
  have e3 : wmul (2 ^ 64 - d) v.elsize = 2 ^ 64 - d * v.elsize := by
    have hde : d * v.elsize < 2 ^ 58 := by
      have : d * v.elsize ≤ 2 * v.elsize := Nat.mul_le_mul_right _ hd2
      omega
    have hde0 : 0 < d * v.elsize := Nat.mul_pos hd hes
    unfold wmul
    have hsplit : (2 ^ 64 - d) * v.elsize = (v.elsize - 1) * 2 ^ 64 + (2 ^ 64 - d * v.elsize) := by
      rw [Nat.sub_mul]
      have : v.elsize * 2 ^ 64 = (v.elsize - 1) * 2 ^ 64 + 2 ^ 64 := by
        rw [Nat.sub_mul]; omega
      omega
    rw [hsplit, Nat.add_comm, Nat.add_mul_mod_self_right, Nat.mod_eq_of_lt (by omega)]
  have hde : d * v.elsize ≤ 2 * v.elsize := Nat.mul_le_mul_right _ hd2
  simp only [Slide.back, hs, if_true, e0, e1, e2, e3]
  rw [readN_ub (by omega)]
  simp

theorem slides_back_ub (k : Nat) : ∀ (v : Arr), v.WF → v.slider < v.len → v.slider + k = v.len →
    slides Slide.back k v = .ub := by
  induction k with
  | zero => intro v _ h1 h2; omega
  | succ k ih =>
    intro v h h1 h2
    by_cases h3 : v.slider + 2 < v.len
    · have w : ({ v with slider := v.slider + 1 } : Arr).WF := ⟨h.le, h.mem, h.es, h.cap, h.lim⟩
      simp only [slides, back_step h h3, bind_ok]
      rw [ih _ w (by simp; omega) (by simp; omega)]
      simp
    · simp only [slides, back_ub h h1 (by omega), bind_ub]

/-- **C10** (refutation) No backward traversal of a non-empty vector succeeds: within `n` calls
`vt_array_slide_back` computes an address outside the buffer. -/
theorem C10_slide_back_always_leaves_buffer (v : Arr) (h : v.WF) (h0 : 0 < Vec.length v) :
    slides Slide.back (Vec.length v) (Slide.reset v) = .ub := by
  have w : (Slide.reset v).WF := ⟨h.le, h.mem, h.es, h.cap, h.lim⟩
  exact slides_back_ub _ _ w h0 (by simp [Slide.reset, Vec.length])

/-- **C10** (partial) What it does return: with `n >= 3` elements, calls 0 .. n-3 return elements
n-3, n-4, ..., 0 - i.e. the last two elements are never visited. -/
theorem C10_slide_back_partial (v : Arr) (h : v.WF) (k : Nat) (hk : k + 2 ≤ Vec.length v) :
    slides Slide.back k (Slide.reset v)
      = .ok ((List.range k).map (fun j => v.elems[Vec.length v - 3 - j]?)) := by
  have gen : ∀ (k : Nat) (v : Arr), v.WF → v.slider + k + 2 ≤ v.len →
      slides Slide.back k v = .ok ((List.range k).map (fun j => v.elems[v.len - 3 - (v.slider + j)]?)) := by
    intro k
    induction k with
    | zero => intro v _ _; simp [slides]
    | succ k ih =>
      intro v h hk
      have w : ({ v with slider := v.slider + 1 } : Arr).WF := ⟨h.le, h.mem, h.es, h.cap, h.lim⟩
      rw [List.range_succ_eq_map, List.map_cons, List.map_map]
      simp only [slides, back_step h (by omega), bind_ok]
      rw [ih _ w (by simp; omega)]
      simp only [bind_ok, Nat.add_zero]
      congr 2
      apply List.map_congr_left
      intro j _
      show v.elems[_]? = _
      simp only [Function.comp]
      congr 2; omega
  have w : (Slide.reset v).WF := ⟨h.le, h.mem, h.es, h.cap, h.lim⟩
  have := gen k (Slide.reset v) w (by simpa [Slide.reset, Vec.length] using hk)
  rw [this]
  simp [Slide.reset, Arr.elems, Vec.length]

example : slides Slide.back 1 exV = .ub := by decide +kernel
/-- The documented result for the same vector would be its last element. -/
example : slides Slide.back 1 exV ≠ .ok [some [some 2, some 0, some 0, some 0]] := by decide +kernel

/-! ### C11: typed accessors -/

theorem leBytes_length (w x : Nat) : (Vec.leBytes w x).length = w := by
  induction w generalizing x with
  | zero => rfl
  | succ w ih => simp [Vec.leBytes, ih]

theorem leValue_leBytes (w : Nat) : ∀ x, Vec.leValue (Vec.leBytes w x) = .ok (x % 2 ^ (8 * w)) := by
  induction w with
  | zero => intro x; simp [Vec.leBytes, Vec.leValue, Nat.mod_one]
  | succ w ih =>
    intro x
    simp only [Vec.leBytes, Vec.leValue, ih, bind_ok, UInt8.toNat_ofNat']
    congr 1
    have : 2 ^ (8 * (w + 1)) = 256 * 2 ^ (8 * w) := by
      rw [Nat.mul_add, Nat.pow_add]; omega
    rw [this, Nat.mod_mul]

theorem getT_of_elem {E : Env} {v : Arr} (h : v.WF) {w : Nat} (hw : v.elsize = w) {i : Nat}
    {x : BitVec (8 * w)} (hx : v.elems[i]? = some (Vec.leBytes w x.toNat)) :
    Vec.getT E v w i = .ok x := by
  have hl : v.elems.length = v.len := by simp [Arr.elems]
  have hi : i < v.len := by
    rw [← hl]; exact (List.getElem?_eq_some_iff.1 hx).1
  have hlt := h.lenlt
  have i0 : (i + 1) * v.elsize ≤ v.len * v.elsize := Nat.mul_le_mul_right _ (by omega)
  have i2 : v.len * v.elsize ≤ v.cap * v.elsize := Nat.mul_le_mul_right _ h.le
  rw [Nat.add_mul, Nat.one_mul] at i0
  have e3 : wmul i v.elsize = i * v.elsize := wmul_eq (by omega)
  have hm := h.mem
  have hg : v.elems[i]? = some ((v.mem.drop (i * v.elsize)).take v.elsize) := by
    rw [Arr.elems, chunks_getElem?, if_pos hi]
  have hb : (v.mem.drop (i * v.elsize)).take w = Vec.leBytes w x.toNat := by
    rw [hg] at hx
    rw [← Option.some.inj hx, hw]
  have hv : Vec.leValue (Vec.leBytes w x.toNat) = .ok x.toNat := by
    rw [leValue_leBytes, Nat.mod_eq_of_lt x.isLt]
  simp only [Vec.getT, hi, decide_true, dassert_true, bind_ok, e3]
  rw [readN_ok (by omega), hb]
  simp [hv]

/-- **C11** Typed push/insert/set followed by the typed getter returns the value, for every bit
pattern, if the element size is the size of the type. -/
theorem C11_typed_roundtrip (E : Env) (v : Arr) (h : v.WF) (w : Nat) (hw : v.elsize = w)
    (x : BitVec (8 * w)) :
    (∀ v', Vec.pushBackT E v w x = .ok v' →
        Vec.getT E v' w (Vec.length v) = .ok x ∧ Vec.popGetT v' w = .ok ({ v' with len := Vec.length v }, x)) ∧
    (∀ v', Vec.pushFrontT E v w x = .ok v' → Vec.getT E v' w 0 = .ok x) ∧
    (∀ v' i, i < Vec.length v → Vec.insertT E v w x i = .ok v' → Vec.getT E v' w i = .ok x) ∧
    (∀ v' i, i < Vec.length v → Vec.setT E v w x i = .ok v' → Vec.getT E v' w i = .ok x) := by
  have hlen : v.elsize ≤ (Vec.leBytes w x.toNat).length := by rw [leBytes_length]; omega
  have htake : (Vec.leBytes w x.toNat).take v.elsize = Vec.leBytes w x.toNat := by
    rw [List.take_of_length_le]; rw [leBytes_length]; omega
  have hl : v.elems.length = v.len := by simp [Arr.elems]
  have room : ∀ {l : List (List Byte)} {v' : Arr}, Spec.withRoom E v.elsize v.abs l = .ok v'.abs → v'.elems = l := by
    intro l v' hh
    unfold Spec.withRoom at hh
    split at hh
    · injection hh with hh; exact (congrArg Spec.SeqState.elems hh).symm
    · split at hh
      · injection hh with hh; exact (congrArg Spec.SeqState.elems hh).symm
      · cases hh
  refine ⟨?_, ?_, ?_, ?_⟩
  · intro v' hv'
    obtain ⟨h1, h2⟩ := pushBack_spec (E := E) h hlen
    have hv'' : Vec.pushBack E v (Vec.leBytes w x.toNat) = .ok v' := hv'
    rw [hv''] at h1
    obtain ⟨w1, s1⟩ := h2 v' hv''
    have he := room h1.symm
    rw [htake] at he
    have hg : Vec.getT E v' w v.len = .ok x := by
      refine getT_of_elem w1 (by rw [s1.1, hw]) ?_
      rw [he, List.getElem?_append_right (by omega)]
      simp [hl]
    refine ⟨hg, ?_⟩
    have hl1 : v'.len = v.len + 1 := by
      have := congrArg List.length he
      simpa [Arr.elems] using this
    have hlt := w1.lenlt
    have e1 : wsub v'.len 1 = v.len := by rw [wsub_eq (by omega) (by omega)]; omega
    have hdbg : dassert E (decide (v.len < v'.len)) = .ok () := by
      have : v.len < v'.len := by omega
      simp [this]
    simp only [Vec.getT, hdbg, bind_ok, bind_eq_ok] at hg
    obtain ⟨bs, hb1, y, hb2, hb3⟩ := hg
    have : v'.len > 0 := by omega
    simp only [Vec.popGetT, this, if_true, e1, hb1, hb2, bind_ok]
    injection hb3 with hb3
    rw [hb3]; rfl
  · intro v' hv'
    obtain ⟨h1, h2⟩ := pushFront_spec (E := E) h hlen
    have hv'' : Vec.pushFront E v (Vec.leBytes w x.toNat) = .ok v' := hv'
    rw [hv''] at h1
    obtain ⟨w1, s1⟩ := h2 v' hv''
    have he := room h1.symm
    rw [htake] at he
    exact getT_of_elem w1 (by rw [s1.1, hw]) (by rw [he]; simp)
  · intro v' i hi hv'
    have hi' : i < v.len := hi
    obtain ⟨h1, h2⟩ := insert_spec (E := E) h hlen hi
    have hv'' : Vec.insert E v (Vec.leBytes w x.toNat) i = .ok v' := hv'
    rw [hv''] at h1
    obtain ⟨w1, s1⟩ := h2 v' hv''
    have he := room h1.symm
    rw [htake] at he
    refine getT_of_elem w1 (by rw [s1.1, hw]) ?_
    have hti : (v.elems.take i).length = i := by simp; omega
    rw [he, Spec.insertAt, List.getElem?_append_right (by omega), hti]
    simp
  · intro v' i hi hv'
    have hi' : i < v.len := hi
    obtain ⟨v1, g1, g2, g3, g4⟩ := set_spec (E := E) h hlen hi
    have hv'' : Vec.set E v (Vec.leBytes w x.toNat) i = .ok v' := hv'
    rw [hv''] at g1
    cases g1
    have he := congrArg Spec.SeqState.elems g2
    simp only [Arr.abs] at he
    rw [htake] at he
    refine getT_of_elem g3 (by rw [g4.1, hw]) ?_
    rw [he, List.getElem?_set]
    simp [hl, hi']

example : (Vec.pushBackT exE exV 4 (-5)).mapOk Arr.elems =
    .ok [[some 1, some 0, some 0, some 0], [some 2, some 0, some 0, some 0], [some 251, some 255, some 255, some 255]] := by decide +kernel
example : Vec.getT exE exV 4 1 = .ok 2 := by decide +kernel

/-! ### C12: sizes -/

/-- **C12** (partial: `n * es` representable) All `n` slots of a freshly created vector can be filled
without any reallocation. -/
theorem C12_capacity_usable_partial (E : Env) (n es : Nat) (hsz : n * es < 2 ^ 64) (v : Arr)
    (hn : 0 < n) (hes : 0 < es)
    (hc : Vec.create E n es = .ok v) (xs : List Mem) (hxs : ∀ x ∈ xs, es ≤ x.length) (hk : xs.length ≤ n) :
    ∃ v', pushAll E v xs = .ok v' ∧ v'.elems = xs.map (·.take es) ∧ v'.cap = n := by
  have e2 : wmul n es = n * es := wmul_eq hsz
  have hp : 0 < n * es := Nat.mul_pos hn hes
  have hw : v.WF ∧ v.len = 0 ∧ v.cap = n ∧ v.elsize = es := by
    cases h1 : E.allocOk arrStructSize with
    | false => simp [Vec.create, hn, hes, vtCalloc_fail (by decide) h1] at hc
    | true =>
      cases h2 : E.allocOk (n * es) with
      | false => simp [Vec.create, hn, hes, e2, vtCalloc_fail hp h2, vtCalloc_ok (by decide) h1] at hc
      | true =>
        simp [Vec.create, hn, hes, e2, vtCalloc_ok hp h2, vtCalloc_ok (by decide) h1] at hc
        subst hc
        exact ⟨⟨by simp, by simp, hes, hn, E.lim _ h2⟩, rfl, rfl, rfl⟩
  obtain ⟨w, hl, hcap, hel⟩ := hw
  have gen : ∀ (xs : List Mem) (v : Arr), v.WF → v.len + xs.length ≤ v.cap → (∀ x ∈ xs, v.elsize ≤ x.length) →
      ∃ v', pushAll E v xs = .ok v' ∧ v'.cap = v.cap := by
    intro xs
    induction xs with
    | nil => intro v _ _ _; exact ⟨v, rfl, rfl⟩
    | cons x xs ih =>
      intro v h hle hx
      simp only [List.length_cons] at hle
      obtain ⟨h1, h2⟩ := pushBack_spec (E := E) h (hx x (by simp))
      have hl : v.elems.length = v.len := by simp [Arr.elems]
      have hlt : v.len < v.cap := by omega
      simp only [Spec.withRoom, Arr.abs, hl, hlt, if_true] at h1
      cases hr : Vec.pushBack E v x with
      | ok v1 =>
        rw [hr] at h1
        simp only [mapOk] at h1
        injection h1 with h1
        obtain ⟨w1, s1⟩ := h2 v1 hr
        have hcap : v1.cap = v.cap := congrArg Spec.SeqState.cap h1
        have hl1 : v1.len = v.len + 1 := by
          have := congrArg (fun s => s.elems.length) h1
          simpa [Arr.abs, Arr.elems] using this
        obtain ⟨v', g1, g2⟩ := ih v1 w1 (by omega) (by intro y hy; rw [s1.1]; exact hx y (by simp [hy]))
        exact ⟨v', by simp [pushAll, hr, g1], by rw [g2, hcap]⟩
      | exit w => rw [hr] at h1; cases h1
      | ub => rw [hr] at h1; cases h1
      | fuel => rw [hr] at h1; cases h1
  obtain ⟨v', g1, g2⟩ := gen xs v w (by omega) (by rw [hel]; exact hxs)
  obtain ⟨_, g4, _⟩ := pushAll_wf xs v v' w (by rw [hel]; exact hxs) g1
  have he : v.elems = [] := by simp [Arr.elems, hl, chunks]
  exact ⟨v', g1, by rw [g4, he, hel]; rfl, by omega⟩

theorem push_in_slots {E : Env} {v : Arr} {x : Mem} (hr : v.len < v.cap) (hc : v.cap < 2 ^ 64) (hm : (v.len + 1) * v.elsize ≤ v.mem.length)
    (hl : v.mem.length < 2 ^ 56) (hx : v.elsize ≤ x.length) :
    ∃ v', Vec.pushBack E v x = .ok v' ∧ v'.len = v.len + 1 ∧ v'.cap = v.cap ∧ v'.elsize = v.elsize ∧ v'.mem.length = v.mem.length := by
  rw [Nat.add_mul, Nat.one_mul] at hm
  have e1 : wmul v.len v.elsize = v.len * v.elsize := wmul_eq (by omega)
  have e2 : hasSpace v ≠ 0 := by
    unfold hasSpace
    rw [wsub_eq (by omega) (by omega)]
    omega
  have e3 : wadd v.len 1 = v.len + 1 := wadd_eq (by omega)
  have hw : v.len * v.elsize + (List.take v.elsize (List.drop 0 x)).length ≤ v.mem.length := by
    rw [List.length_take, List.drop_zero]; omega
  refine ⟨{ v with len := v.len + 1, mem := v.mem.take (v.len * v.elsize) ++ (x.drop 0).take v.elsize ++ v.mem.drop (v.len * v.elsize + ((x.drop 0).take v.elsize).length) }, ?_, rfl, rfl, rfl, ?_⟩
  · rw [Vec.pushBack, Vec.grow, if_neg e2, bind_ok, memcpyIn, readN_ok (by omega), bind_ok, e1, writeN_ok hw, bind_ok, e3]
  · simp only [List.length_append, List.length_take, List.length_drop, List.drop_zero]
    omega

theorem push_outside {E : Env} {v : Arr} {x : Mem} (hr : v.len < v.cap) (hc : v.cap < 2 ^ 64) (hm : v.len * v.elsize ≤ v.mem.length)
    (hm2 : v.mem.length < (v.len + 1) * v.elsize) (hl : v.mem.length < 2 ^ 56) (hx : v.elsize ≤ x.length) :
    Vec.pushBack E v x = .ub := by
  rw [Nat.add_mul, Nat.one_mul] at hm2
  have e1 : wmul v.len v.elsize = v.len * v.elsize := wmul_eq (by omega)
  have e2 : hasSpace v ≠ 0 := by
    unfold hasSpace
    rw [wsub_eq (by omega) (by omega)]
    omega
  have hw : ¬ v.len * v.elsize + (List.take v.elsize (List.drop 0 x)).length ≤ v.mem.length := by
    rw [List.length_take, List.drop_zero]; omega
  rw [Vec.pushBack, Vec.grow, if_neg e2, bind_ok, memcpyIn, readN_ok (by omega), bind_ok, e1, writeN, if_neg hw, bind_ub]

theorem pushAll_in_slots {E : Env} (xs : List Mem) : ∀ v : Arr, v.len + xs.length ≤ v.cap → v.cap < 2 ^ 64 →
    (v.len + xs.length) * v.elsize ≤ v.mem.length → v.mem.length < 2 ^ 56 → (∀ x ∈ xs, v.elsize ≤ x.length) →
    ∃ v', pushAll E v xs = .ok v' ∧ v'.len = v.len + xs.length ∧ v'.cap = v.cap ∧ v'.elsize = v.elsize ∧
      v'.mem.length = v.mem.length := by
  induction xs with
  | nil => intro v _ _ _ _ _; exact ⟨v, rfl, rfl, rfl, rfl, rfl⟩
  | cons x xs ih =>
    intro v hr hc hm hl hx
    simp only [List.length_cons] at hr hm
    have hmm : (v.len + 1) * v.elsize ≤ (v.len + (xs.length + 1)) * v.elsize := Nat.mul_le_mul_right _ (by omega)
    obtain ⟨v1, h1, l1, c1, s1, m1⟩ := push_in_slots (E := E) (v := v) (x := x) (by omega) hc (by omega) hl (hx x (by simp))
    have e : v1.len + xs.length = v.len + (xs.length + 1) := by omega
    obtain ⟨v2, h2, l2, c2, s2, m2⟩ := ih v1 (by omega) (by omega) (by rw [e, s1]; omega) (by omega)
      (fun y hy => by rw [s1]; exact hx y (List.mem_cons_of_mem _ hy))
    exact ⟨v2, by rw [pushAll, h1, bind_ok, h2], by simp only [List.length_cons]; omega, by omega, by omega, by omega⟩

/-- **C12** (refutation) Whenever the byte count `n * es` is not representable, a successful `vt_vec_create(n, es)` returns a vector that
reports a capacity of `n`, but after some number `k < n` of pushes the next one writes outside the buffer. -/
theorem C12_size_overflow (E : Env) (n es : Nat) (hes : 0 < es) (hn : n < 2 ^ 64) (hsz : 2 ^ 64 ≤ n * es) (v : Arr)
    (hc : Vec.create E n es = .ok v) :
    v.cap = n ∧ ∃ k, k < n ∧ ∀ xs : List Mem, xs.length = k → (∀ x ∈ xs, es ≤ x.length) →
      ∃ v', pushAll E v xs = .ok v' ∧ ∀ x : Mem, es ≤ x.length → Vec.pushBack E v' x = .ub := by
  have hn0 : 0 < n := Nat.pos_of_ne_zero (by rintro rfl; omega)
  generalize hw : wmul n es = w at hc
  have hw' : w < 2 ^ 64 := by rw [← hw, wmul]; exact Nat.mod_lt _ (by omega)
  obtain ⟨hv, hlim⟩ : v = ⟨0, n, es, 0, false, List.replicate w (some 0)⟩ ∧ w < 2 ^ 56 := by
    unfold Vec.create at hc
    rw [decide_eq_true hn0, decide_eq_true hes, dassert_true, bind_ok, bind_ok, bind_eq_ok] at hc
    obtain ⟨_, -, hc⟩ := hc
    rw [bind_eq_ok] at hc
    obtain ⟨m, hm, hc⟩ := hc
    rw [hw] at hm
    unfold vtCalloc at hm
    rw [bind_eq_ok] at hm
    obtain ⟨_, -, hm⟩ := hm
    split at hm
    · next g =>
      have := E.lim w g
      cases hm
      cases hc
      exact ⟨rfl, this⟩
    · simp at hm
  subst hv
  have hk : w / es * es ≤ w := Nat.div_mul_le_self _ _
  have hk2 : w < (w / es + 1) * es := by
    have := Nat.div_add_mod w es
    have := Nat.mod_lt w hes
    rw [Nat.add_mul, Nat.one_mul, Nat.mul_comm]
    omega
  have hkn : w / es < n := by rw [Nat.div_lt_iff_lt_mul hes]; omega
  refine ⟨rfl, w / es, hkn, fun xs hl hx => ?_⟩
  obtain ⟨v', h1, l1, c1, s1, m1⟩ := pushAll_in_slots (E := E) xs ⟨0, n, es, 0, false, List.replicate w (some 0)⟩
    (by simp only [Nat.zero_add]; omega) hn (by simp only [Nat.zero_add, List.length_replicate]; rw [hl]; exact hk)
    (by simp only [List.length_replicate]; exact hlim) hx
  simp only [Nat.zero_add, List.length_replicate] at l1 c1 s1 m1
  refine ⟨v', h1, fun x hx => push_outside (by omega) (by omega) ?_ ?_ (by omega) (by omega)⟩
  · rw [l1, s1, m1, hl]; exact hk
  · rw [l1, s1, m1, hl]; exact hk2

/-- Example: `vt_vec_create(2^61 + 1, 8)` gives an 8-byte buffer and a capacity of 2^61 + 1; the second push is undefined. -/
example :
    ∃ v v1, 2 ^ 64 ≤ (2 ^ 61 + 1) * 8 ∧ Vec.create exE (2 ^ 61 + 1) 8 = .ok v ∧ v.cap = 2 ^ 61 + 1 ∧ v.mem.length = 8 ∧
      Vec.pushBack exE v (List.replicate 8 (some 1)) = .ok v1 ∧
      Vec.pushBack exE v1 (List.replicate 8 (some 1)) = .ub := by
  refine ⟨⟨0, 2 ^ 61 + 1, 8, 0, false, List.replicate 8 (some 0)⟩,
    ⟨1, 2 ^ 61 + 1, 8, 0, false, List.replicate 8 (some 1)⟩, by omega, ?_, rfl, rfl, ?_, ?_⟩ <;> decide +kernel

end Vita
