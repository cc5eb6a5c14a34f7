import Verif.Props.Vec
import Verif.Props.Plist
import Verif.Lemmas.StrOps
import Verif.Props.StrEdit
/-!
# The cost of growing (C110)

Growing a container moves all its members to a new block.  How much is moved in total by a history of calls, and how many blocks are asked for?
-/

namespace Vita
open Out Spec

/-- The same machine, if it granted no block of more than `b` bytes. -/
def Env.upTo (E : Env) (b : Nat) : Env :=
  { E with
    allocOk := fun n => E.allocOk n && decide (n ≤ b)
    lim := fun n h => E.lim n (by simp only [Bool.and_eq_true] at h; exact h.1) }

/-- The call needs a new block for the members: without blocks of more than one member it is refused memory. -/
def Asks (E : Env) (run : Env → Arr → γ → Out Arr) (v : Arr) (c : γ) : Prop := run (E.upTo v.elsize) v c = .exit .alloc

instance (E : Env) (run : Env → Arr → γ → Out Arr) (v : Arr) (c : γ) : Decidable (Asks E run v c) := inferInstanceAs (Decidable (_ = _))

/-- The number of new blocks in a history of calls. -/
def blocks (E : Env) (run : Env → Arr → γ → Out Arr) : Arr → List γ → Nat
  | _, [] => 0
  | v, c :: cs => (if Asks E run v c then 1 else 0) + (match run E v c with
      | .ok v' => blocks E run v' cs
      | _ => 0)

/-- The number of members that have to be moved to new blocks in a history of calls. -/
def moved (E : Env) (run : Env → Arr → γ → Out Arr) : Arr → List γ → Nat
  | _, [] => 0
  | v, c :: cs => (if Asks E run v c then v.len else 0) + (match run E v c with
      | .ok v' => moved E run v' cs
      | _ => 0)

/-- The calls that add a member. -/
def VecCall.adds : VecCall → Nat
  | .pushBack _ | .pushFront _ | .insert _ _ => 1
  | _ => 0

/-- The calls by which the user chooses the capacity. -/
def VecCall.chooses : VecCall → Bool
  | .reserve _ | .resize _ | .shrink => true
  | _ => false

/-- What one call may do to length and capacity, and when. -/
def GrowStep (v v' : Arr) (n : Nat) (asks : Prop) : Prop :=
  (¬ asks ∧ v'.cap = v.cap ∧ v'.len ≤ v.len + n) ∨ (asks ∧ v.len = v.cap ∧ v'.cap = 3 * v.cap ∧ v'.len = v.len + 1 ∧ n = 1)

theorem elems_len (v : Arr) : v.elems.length = v.len := by simp [Arr.elems]

theorem withRoom_grow {E : Env} {v v' : Arr} (h : v.WF) {l : List (List Byte)} (hl : l.length = v.len + 1) (h1 : Spec.withRoom E v.elsize v.abs l = .ok v'.abs)
    {o : Out Arr} (h2 : o.mapOk Arr.abs = Spec.withRoom (E.upTo v.elsize) v.elsize v.abs l) : GrowStep v v' 1 (o = .exit .alloc) := by
  have e := elems_len v
  have e' := elems_len v'
  have hes := h.es
  have hcp := h.cap
  have hle := h.le
  have hbig : ¬ 3 * v.cap * v.elsize ≤ v.elsize := by
    have : 3 * v.elsize ≤ 3 * v.cap * v.elsize := Nat.mul_le_mul_right _ (by omega)
    omega
  have ha : v.abs.elems.length = v.len := e
  unfold Spec.withRoom at h1 h2
  by_cases hs : v.len < v.cap
  · rw [if_pos (by rw [ha]; exact hs)] at h1 h2
    have h1' := Out.ok.inj h1
    simp only [Arr.abs, Spec.SeqState.mk.injEq] at h1'
    refine Or.inl ⟨fun hc => by rw [hc] at h2; simp at h2, h1'.2.symm, ?_⟩
    rw [← e', ← h1'.1, hl]
    exact Nat.le_refl _
  · rw [if_neg (by rw [ha]; exact hs)] at h1 h2
    have hno : ¬ (E.upTo v.elsize).allocOk (3 * v.abs.cap * v.elsize) = true := by
      show ¬ (E.allocOk (3 * v.cap * v.elsize) && decide (3 * v.cap * v.elsize ≤ v.elsize)) = true
      simp [hbig]
    rw [if_neg hno] at h2
    split at h1
    · have h1' := Out.ok.inj h1
      simp only [Arr.abs, Spec.SeqState.mk.injEq] at h1'
      refine Or.inr ⟨?_, by omega, h1'.2.symm, by rw [← e', ← h1'.1, hl], rfl⟩
      cases o <;> simp_all
    · cases h1

theorem same_grow {v v' : Arr} {es : List (List Byte)} {n : Nat} (h1 : v'.abs = ⟨es, v.cap⟩) (hl : es.length ≤ v.len + n) {o : Out Arr} {es' : List (List Byte)} {c' : Nat}
    (h2 : o.mapOk Arr.abs = .ok ⟨es', c'⟩) : GrowStep v v' n (o = .exit .alloc) := by
  have e' := elems_len v'
  simp only [Arr.abs, Spec.SeqState.mk.injEq] at h1
  refine Or.inl ⟨fun hc => by rw [hc] at h2; simp at h2, h1.2, ?_⟩
  rw [← e', h1.1]
  exact hl

theorem swapRemove_length (l : List α) (i : Nat) : (Spec.swapRemove l i).length ≤ l.length := by
  unfold Spec.swapRemove
  split
  · simp
  · simp

theorem removeAt_length (l : List α) (i : Nat) : (Spec.removeAt l i).length ≤ l.length := by
  unfold Spec.removeAt
  simp
  omega

theorem vec_growStep {E : Env} (hD : E.debug = true) (hI : E.isoMemcpy = false) {v v' : Arr} (h : v.WF) {c : VecCall} (hc : c.Fits v.elsize) (hch : c.chooses = false)
    (hr : c.run E v = .ok v') : GrowStep v v' c.adds (Asks E (fun E v c => VecCall.run E v c) v c) := by
  have s1 := (vecStep hD hI h c hc).1
  have s2 := (vecStep (E := E.upTo v.elsize) hD hI h c hc).1
  have e := elems_len v
  rw [hr] at s1
  unfold Asks
  simp only [Out.mapOk] at s1
  cases c with
  | pushBack val => exact withRoom_grow h (by simp [e, Arr.abs]) s1.symm s2
  | pushFront val => exact withRoom_grow h (by simp [e, Arr.abs]) s1.symm s2
  | insert val i =>
    simp only [VecCall.toOp, Spec.SeqStep, Arr.abs, e] at s1 s2
    split at s1
    · rename_i hi
      rw [if_pos hi] at s2
      exact withRoom_grow h (by simp [Spec.insertAt, e]; omega) s1.symm s2
    · cases s1
  | set val i =>
    simp only [VecCall.toOp, Spec.SeqStep, Arr.abs, e] at s1 s2
    split at s1
    · rename_i hi
      rw [if_pos hi] at s2
      exact same_grow (Out.ok.inj s1) (by simp [e]) s2
    · cases s1
  | removeStable i =>
    simp only [VecCall.toOp, Spec.SeqStep, Arr.abs, e] at s1 s2
    split at s1
    · rename_i hi
      rw [if_pos hi] at s2
      exact same_grow (Out.ok.inj s1) (by have := removeAt_length v.elems i; omega) s2
    · cases s1
  | removeFast i =>
    simp only [VecCall.toOp, Spec.SeqStep, Arr.abs, e] at s1 s2
    split at s1
    · rename_i hi
      rw [if_pos hi] at s2
      split at s1
      · rename_i ht
        rw [if_pos (by simpa [Env.upTo] using ht)] at s2
        exact same_grow (Out.ok.inj s1) (by have := swapRemove_length v.elems i; omega) s2
      · cases s1
    · cases s1
  | pop => exact same_grow (Out.ok.inj s1) (by simp [e, Arr.abs]; omega) s2
  | clear => exact same_grow (Out.ok.inj s1) (by simp) s2
  | reserve n => cases hch
  | resize n => cases hch
  | shrink => cases hch

/-- Growing by steps that triple the capacity of a full container. -/
theorem grow_total {E : Env} {run : Env → Arr → γ → Out Arr} {runs : Arr → List γ → Out Arr} (r0 : ∀ v, runs v [] = .ok v)
    (r1 : ∀ v c cs, runs v (c :: cs) = run E v c >>= fun v' => runs v' cs) {adds : γ → Nat} {P : Arr → Prop} {Q : γ → Prop}
    (step : ∀ v v' c, P v → Q c → run E v c = .ok v' → P v' ∧ GrowStep v v' (adds c) (Asks E run v c)) :
    ∀ (cs : List γ) (v v' : Arr), P v → (∀ c ∈ cs, Q c) → runs v cs = .ok v' →
      2 * moved E run v cs + v.cap = v'.cap ∧ v'.cap = 3 ^ blocks E run v cs * v.cap ∧
      (v'.cap = v.cap ∨ v'.cap < 3 * (v.len + (cs.map adds).sum)) := by
  intro cs
  induction cs with
  | nil =>
    intro v v' _ _ hr
    rw [r0] at hr
    cases hr
    simp [moved, blocks]
  | cons c cs ih =>
    intro v v' hp hq hr
    rw [r1] at hr
    obtain ⟨v1, h1, h2⟩ := bind_eq_ok.1 hr
    obtain ⟨hp1, hs⟩ := step v v1 c hp (hq c (by simp)) h1
    obtain ⟨i1, i2, i3⟩ := ih v1 v' hp1 (fun x hx => hq x (by simp [hx])) h2
    simp only [moved, blocks, h1, List.map_cons, List.sum_cons]
    rcases hs with ⟨ha, hc, hl⟩ | ⟨ha, hf, hc, hl, hn⟩
    · simp only [ha, if_false, Nat.zero_add]
      rw [hc] at i1 i2 i3
      exact ⟨i1, i2, by omega⟩
    · simp only [ha, if_true]
      rw [hc] at i1 i2 i3
      refine ⟨by omega, ?_, by omega⟩
      rw [i2, Nat.add_comm 1, Nat.pow_succ, Nat.mul_assoc]

/-- **C110** A history of calls on a vector, in which the user does not choose the capacity, moves at most three members for two that were there or were added: exactly half of the growth of
the capacity.  The capacity is multiplied by three with each new block, so their number is the logarithm of the growth, and it stays below three times the number of members that were there or were added. -/
theorem C110_vector {E : Env} (hD : E.debug = true) (hI : E.isoMemcpy = false) {v v' : Arr} (h : v.WF) {cs : List VecCall} (hc : ∀ c ∈ cs, c.Fits v.elsize ∧ c.chooses = false)
    (hr : runVec E v cs = .ok v') :
    2 * moved E (fun E v c => VecCall.run E v c) v cs ≤ 3 * (v.len + (cs.map VecCall.adds).sum) ∧
    2 * moved E (fun E v c => VecCall.run E v c) v cs + v.cap = v'.cap ∧ v'.cap = 3 ^ blocks E (fun E v c => VecCall.run E v c) v cs * v.cap ∧
    (v'.cap = v.cap ∨ v'.cap < 3 * (v.len + (cs.map VecCall.adds).sum)) := by
  obtain ⟨h1, h2, h3⟩ := grow_total (E := E) (run := fun E v c => VecCall.run E v c) (runs := runVec E) (fun _ => rfl) (fun _ _ _ => rfl) (adds := VecCall.adds)
    (P := fun w => w.WF ∧ w.elsize = v.elsize) (Q := fun c => c.Fits v.elsize ∧ c.chooses = false)
    (fun w w' c hw hq hr => by
      obtain ⟨a, b⟩ := (vecStep hD hI hw.1 c (by rw [hw.2]; exact hq.1)).2.1 w' hr
      exact ⟨⟨a, by rw [b.1, hw.2]⟩, vec_growStep hD hI hw.1 (by rw [hw.2]; exact hq.1) hq.2 hr⟩) cs v v' ⟨h, rfl⟩ hc hr
  exact ⟨by omega, h1, h2, h3⟩

example : moved exE (fun E v c => VecCall.run E v c) exV [.pushBack [some 1, some 2, some 3, some 4], .insert [some 1, some 2, some 3, some 4] 1] = 3 ∧
    blocks exE (fun E v c => VecCall.run E v c) exV [.pushBack [some 1, some 2, some 3, some 4], .insert [some 1, some 2, some 3, some 4] 1] = 1 ∧
    (runVec exE exV [.pushBack [some 1, some 2, some 3, some 4], .insert [some 1, some 2, some 3, some 4] 1]).mapOk Arr.cap = .ok 9 := by decide +kernel

/-! ### Pointer lists -/

/-- The calls that add a member. -/
def Spec.PlOp.adds : Spec.PlOp → Nat
  | .pushBack _ | .pushFront _ | .insert _ _ => 1
  | _ => 0

/-- The calls by which the user chooses the capacity. -/
def Spec.PlOp.chooses : Spec.PlOp → Bool
  | .reserve _ | .shrink => true
  | _ => false

theorem guardOp_ok {c : Prop} [Decidable c] {o : Out α} {a : α} (h : Spec.guardOp c o = .ok a) : c ∧ o = .ok a := by
  unfold Spec.guardOp at h
  split at h
  · exact ⟨‹_›, h⟩
  · cases h

/-- The same for the specification of pointer lists. -/
theorem plSpec_grow {E : Env} {s s' : Spec.SeqState Ptr} (hle : s.elems.length ≤ s.cap) (h0 : 0 < s.cap) {c : Spec.PlOp} (hch : c.chooses = false) (h : Spec.plStep E s c = .ok s') :
    (s'.cap = s.cap ∧ s'.elems.length ≤ s.elems.length + c.adds ∧ ∃ x, Spec.plStep (E.upTo 8) s c = .ok x) ∨
    (s.elems.length = s.cap ∧ s'.cap = 3 * s.cap ∧ s'.elems.length = s.elems.length + 1 ∧ c.adds = 1 ∧ Spec.plStep (E.upTo 8) s c = .exit .alloc) := by
  have room : ∀ l : List Ptr, l.length = s.elems.length + 1 → Spec.withRoom E 8 s l = .ok s' →
      (s'.cap = s.cap ∧ s'.elems.length ≤ s.elems.length + 1 ∧ ∃ x, Spec.withRoom (E.upTo 8) 8 s l = .ok x) ∨
      (s.elems.length = s.cap ∧ s'.cap = 3 * s.cap ∧ s'.elems.length = s.elems.length + 1 ∧ Spec.withRoom (E.upTo 8) 8 s l = .exit .alloc) := by
    intro l hl hw
    unfold Spec.withRoom at hw ⊢
    by_cases hs : s.elems.length < s.cap
    · rw [if_pos hs] at hw ⊢
      obtain rfl := Out.ok.inj hw
      exact Or.inl ⟨rfl, by simp [hl], _, rfl⟩
    · rw [if_neg hs] at hw ⊢
      have hno : ¬ (E.upTo 8).allocOk (3 * s.cap * 8) = true := by
        show ¬ (E.allocOk (3 * s.cap * 8) && decide (3 * s.cap * 8 ≤ 8)) = true
        have : ¬ 3 * s.cap * 8 ≤ 8 := by omega
        simp [this]
      rw [if_neg hno]
      split at hw
      · obtain rfl := Out.ok.inj hw
        exact Or.inr ⟨by omega, rfl, hl, rfl⟩
      · cases hw
  cases c with
  | pushBack q =>
    obtain ⟨hq, hw⟩ := guardOp_ok h
    simp only [Spec.plStep, Spec.guardOp, if_pos hq, Spec.PlOp.adds, true_and]
    exact room _ (by simp) hw
  | pushFront q =>
    obtain ⟨hq, hw⟩ := guardOp_ok h
    simp only [Spec.plStep, Spec.guardOp, if_pos hq, Spec.PlOp.adds, true_and]
    exact room _ (by simp) hw
  | insert q i =>
    obtain ⟨hq, hw⟩ := guardOp_ok h
    simp only [Spec.plStep, Spec.guardOp, if_pos hq, Spec.PlOp.adds, true_and]
    exact room _ (by simp [Spec.insertAt]; omega) hw
  | set q i =>
    obtain ⟨hq, hw⟩ := guardOp_ok h
    obtain rfl := Out.ok.inj hw
    exact Or.inl ⟨rfl, by simp, _, by simp only [Spec.plStep, Spec.guardOp, if_pos hq]; rfl⟩
  | removeStable i =>
    obtain ⟨hq, hw⟩ := guardOp_ok h
    obtain rfl := Out.ok.inj hw
    exact Or.inl ⟨rfl, by have := removeAt_length s.elems i; simp only; omega, _, by simp only [Spec.plStep, Spec.guardOp, if_pos hq]; rfl⟩
  | removeFast i =>
    obtain ⟨hq, hw⟩ := guardOp_ok h
    obtain rfl := Out.ok.inj hw
    exact Or.inl ⟨rfl, by have := swapRemove_length s.elems i; simp only; omega, _, by simp only [Spec.plStep, Spec.guardOp, if_pos hq]; rfl⟩
  | removeElement q =>
    obtain ⟨hq, hw⟩ := guardOp_ok h
    obtain rfl := Out.ok.inj hw
    exact Or.inl ⟨rfl, by have := List.length_erase_le (a := q) (l := s.elems); simp only; omega, _, by simp only [Spec.plStep, Spec.guardOp, if_pos hq]; rfl⟩
  | removeElementFast q =>
    obtain ⟨hq, hw⟩ := guardOp_ok h
    obtain rfl := Out.ok.inj hw
    refine Or.inl ⟨rfl, ?_, _, by simp only [Spec.plStep, Spec.guardOp, if_pos hq]; rfl⟩
    simp only
    split
    · have := swapRemove_length s.elems (s.elems.idxOf q); omega
    · omega
  | pop =>
    obtain rfl := Out.ok.inj h
    exact Or.inl ⟨rfl, by simp; omega, _, rfl⟩
  | clear =>
    obtain rfl := Out.ok.inj h
    exact Or.inl ⟨rfl, by simp, _, rfl⟩
  | reserve n => cases hch
  | shrink => cases hch

theorem pl_growStep {E : Env} (hD : E.debug = true) {p p' : Arr} {s : Spec.SeqState Ptr} (h : PlHolds p s) {c : Spec.PlOp} (hc : c.Fits) (hch : c.chooses = false)
    (hr : c.run E p = .ok p') : (∃ s', PlHolds p' s') ∧ GrowStep p p' c.adds (Asks E (fun E v c => Spec.PlOp.run E v c) p c) := by
  obtain ⟨s1, w1⟩ := plStep_ok hD h c hc
  have s2 := (plStep_ok (E := E.upTo 8) hD h c hc).1
  rw [hr] at s1
  obtain ⟨hw, hes⟩ := w1 p' hr
  have hle := h.wf.le
  have hl := h.len
  have hcap := h.cap
  have h0 := h.wf.cap
  have hst : ∃ s', Spec.plStep E s c = .ok s' ∧ p'.abs = encState s' := by
    cases hx : Spec.plStep E s c <;> rw [hx] at s1 <;> simp [Out.mapOk] at s1
    exact ⟨_, rfl, s1⟩
  obtain ⟨s', e1, e2⟩ := hst
  have h' : PlHolds p' s' := ⟨hw, hes, e2⟩
  refine ⟨⟨s', h'⟩, ?_⟩
  have hl' := h'.len
  have hcap' := h'.cap
  unfold Asks
  rw [h.es]
  rcases plSpec_grow (by omega) (by omega) hch e1 with ⟨a1, a2, x, a3⟩ | ⟨a1, a2, a3, a4, a5⟩
  · refine Or.inl ⟨fun hx => ?_, by omega, by omega⟩
    rw [a3] at s2
    have hx' : Spec.PlOp.run (E.upTo 8) p c = .exit .alloc := hx
    rw [hx'] at s2
    simp [Out.mapOk] at s2
  · refine Or.inr ⟨?_, by omega, by omega, by omega, a4⟩
    rw [a5] at s2
    show Spec.PlOp.run (E.upTo 8) p c = .exit .alloc
    cases hx : Spec.PlOp.run (E.upTo 8) p c <;> rw [hx] at s2 <;> simp [Out.mapOk] at s2
    rw [s2]

/-- **C110** The same for pointer lists, from their creation on. -/
theorem C110_pointer_list {E : Env} (hD : E.debug = true) {n : Nat} (hn : 0 < n) (hsz : n * 8 < 2 ^ 64) (h1 : E.allocOk arrStructSize = true) (h2 : E.allocOk (n * 8) = true)
    {cs : List Spec.PlOp} (hc : ∀ c ∈ cs, c.Fits ∧ c.chooses = false) {p p' : Arr} (hp : Plist.create E n = .ok p) (hr : runPl E p cs = .ok p') :
    2 * moved E (fun E v c => Spec.PlOp.run E v c) p cs ≤ 3 * (cs.map Spec.PlOp.adds).sum ∧
    2 * moved E (fun E v c => Spec.PlOp.run E v c) p cs + n = p'.cap ∧ p'.cap = 3 ^ blocks E (fun E v c => Spec.PlOp.run E v c) p cs * n ∧
    (p'.cap = n ∨ p'.cap < 3 * (cs.map Spec.PlOp.adds).sum) := by
  obtain ⟨p0, e0, hh⟩ := plCreate_ok hn hsz h1 h2
  rw [hp] at e0
  obtain rfl := Out.ok.inj e0
  have hl := hh.len
  have hcap := hh.cap
  simp only [List.length_nil] at hl
  simp only at hcap
  obtain ⟨g1, g2, g3⟩ := grow_total (E := E) (run := fun E v c => Spec.PlOp.run E v c) (runs := runPl E) (fun _ => rfl) (fun _ _ _ => rfl) (adds := Spec.PlOp.adds)
    (P := fun w => ∃ s, PlHolds w s) (Q := fun c => c.Fits ∧ c.chooses = false)
    (fun w w' c hw hq hr => by
      obtain ⟨s, hs⟩ := hw
      exact pl_growStep hD hs hq.1 hq.2 hr) cs p p' ⟨_, hh⟩ hc hr
  rw [hcap] at g1 g2 g3
  rw [hl, Nat.zero_add] at g3
  exact ⟨by omega, g1, g2, g3⟩

example : (do
    let p ← Plist.create exE 1
    pure (moved exE (fun E v c => Spec.PlOp.run E v c) p [.pushBack 7, .pushBack 7, .pushBack 7, .pushBack 7, .pushBack 7])) = Out.ok 4 ∧
    ((Plist.create exE 1 >>= fun p => runPl exE p [.pushBack 7, .pushBack 7, .pushBack 7, .pushBack 7, .pushBack 7]).mapOk Arr.cap) = .ok 9 := by decide +kernel

/-! ### Strings -/

/-- Appending the texts one after the other. -/
def appendAll (E : Env) : Arr → List Mem → Out Arr
  | s, [] => .ok s
  | s, z :: zs => Str.append E s z >>= fun s' => appendAll E s' zs

/-- **C110** (exact cost for strings) Appending to a string asks for a new block whenever the text becomes longer than ever before, and moves all of it: a string grows by what is missing only. -/
theorem C110_string_asks {E : Env} {s : Arr} {t zs : Text} (h : IsStr s t) {z : Mem} (hz : CStr z zs) (h1 : zs ≠ []) :
    Asks E (fun E v (z : Mem) => Str.append E v z) s z ↔ s.cap < t.length + zs.length := by
  unfold Asks
  have hes := h.es
  have hlim := hz.lim
  have hpos := List.length_pos_iff.2 h1
  simp only [append_eq hz]
  constructor
  · intro hx
    by_contra hc
    obtain ⟨v', e, -⟩ := appendN_ok (E := E.upTo s.elsize) h hz.nz hz.begins (by omega) (Or.inl hpos) (Or.inl (by omega))
    rw [e] at hx
    cases hx
  · intro hc
    refine appendN_fail h (by omega) hpos hc ?_
    show (E.allocOk _ && decide (t.length + zs.length + 1 ≤ s.elsize)) = false
    rw [hes]
    have : ¬ (t.length + zs.length + 1 ≤ 1) := by omega
    simp [this]

/-- **C110 is false for strings**: appending a single character `n` times to a string without spare room asks for `n` new blocks, and moves `n · length + n (n - 1) / 2` characters: the work is quadratic. -/
theorem C110_string_quadratic {E : Env} {z : Mem} {b : UInt8} (hz : CStr z [b]) : ∀ (n : Nat) {s s' : Arr} {t : Text}, IsStr s t → s.cap = t.length →
    appendAll E s (List.replicate n z) = .ok s' →
    blocks E (fun E v (z : Mem) => Str.append E v z) s (List.replicate n z) = n ∧
    2 * moved E (fun E v (z : Mem) => Str.append E v z) s (List.replicate n z) + n = 2 * (n * t.length) + n * n := by
  intro n
  induction n with
  | zero => intro s s' t _ _ _; simp [blocks, moved]
  | succ n ih =>
    intro s s' t h hc hr
    rw [List.replicate_succ] at hr ⊢
    have ha := (C110_string_asks (E := E) h hz (by simp)).2 (by simp [hc])
    obtain ⟨v1, e1, hr1⟩ := bind_eq_ok.1 hr
    obtain ⟨v2, e2, hs, hcap, -⟩ | ⟨e2, -⟩ := append_okOr (E := E) h hz (by simp)
    · rw [e1] at e2
      obtain rfl := Out.ok.inj e2
      obtain ⟨i1, i2⟩ := ih hs (by simp [hcap, hc]) hr1
      simp only [blocks, moved, if_pos ha, e1, i1, h.len]
      refine ⟨by omega, ?_⟩
      simp only [List.length_append, List.length_singleton, Nat.mul_add, Nat.add_mul, Nat.mul_one, Nat.one_mul] at i2 ⊢
      omega
    · rw [e1] at e2; cases e2

example : CStr (zstr [97]) [97] ∧ IsStr (strObj [98, 99] 0) [98, 99] :=
  ⟨cstr_zstr (by decide) (by decide), isStr_strObj (by decide) (by decide)⟩

example : (appendAll exE (strObj [98, 99] 0) (List.replicate 5 (zstr [97]))).mapOk Arr.cap = .ok 7 ∧
    moved exE (fun E v (z : Mem) => Str.append E v z) (strObj [98, 99] 0) (List.replicate 5 (zstr [97])) = 20 := by decide +kernel

end Vita
