import Verif.Lemmas.VecStep
import Verif.Lemmas.StrOps
import Verif.Props.Plist
import Verif.Props.StrEdit
/-!
# Applying a callback to every element (C83)
-/

namespace Vita

open Out Spec

theorem visit_length (f : σ → α → Nat → σ × α) (l : List α) : ∀ i st, (Spec.visit f i l st).1.length = l.length := by
  induction l with
  | nil => intro i st; rfl
  | cons x l ih => intro i st; simp [Spec.visit, ih]

theorem visit_all {f : σ → α → Nat → σ × α} {P : α → Prop} (hf : ∀ st x i, P x → P (f st x i).2) (l : List α) :
    (∀ x ∈ l, P x) → ∀ i st, ∀ y ∈ (Spec.visit f i l st).1, P y := by
  induction l with
  | nil => intro _ i st y hy; simp [Spec.visit] at hy
  | cons x l ih =>
    intro h i st y hy
    simp only [Spec.visit, List.mem_cons] at hy
    rcases hy with rfl | hy
    · exact hf _ _ _ (h x (by simp))
    · exact ih (fun z hz => h z (by simp [hz])) _ _ y hy

theorem vecApplyLoop_ok (f : σ → List Byte → Nat → σ × List Byte) (es : Nat)
    (hf : ∀ st x i, x.length = es → (f st x i).2.length = es) :
    ∀ (todo done : List (List Byte)) (rest : Mem) (st : σ),
      (∀ x ∈ todo, x.length = es) → (∀ x ∈ done, x.length = es) →
      (done.length + todo.length) * es < 2 ^ 64 →
      Vec.applyLoop f es todo.length (done.flatten ++ (todo.flatten ++ rest)) done.length st =
        .ok ((done ++ (Spec.visit f done.length todo st).1).flatten ++ rest, (Spec.visit f done.length todo st).2)
  | [], done, rest, st, _, _, _ => by simp [Vec.applyLoop, Spec.visit]
  | x :: todo, done, rest, st, h1, h2, h3 => by
    have hx : x.length = es := h1 x (by simp)
    have ld : done.flatten.length = done.length * es := flatten_length _ _ h2
    have hw : wmul done.length es = done.length * es := by
      apply wmul_eq
      refine Nat.lt_of_le_of_lt (Nat.mul_le_mul_right _ ?_) h3
      simp
    have hr : readN (done.flatten ++ ((x :: todo).flatten ++ rest)) (done.length * es) es = .ok x := by
      have := readN_mid done.flatten x (todo.flatten ++ rest) (off := done.length * es) (n := es) ld.symm hx.symm
      simpa using this
    have hwr : writeN (done.flatten ++ ((x :: todo).flatten ++ rest)) (done.length * es) (f st x done.length).2 =
        .ok ((done ++ [(f st x done.length).2]).flatten ++ (todo.flatten ++ rest)) := by
      have := writeN_mid done.flatten x (todo.flatten ++ rest) (f st x done.length).2 (off := done.length * es) ld.symm
        (by rw [hf _ _ _ hx, hx])
      simpa using this
    have ih := vecApplyLoop_ok f es hf todo (done ++ [(f st x done.length).2]) rest (f st x done.length).1
      (fun y hy => h1 y (by simp [hy]))
      (by
        intro y hy
        rcases List.mem_append.1 hy with hy | hy
        · exact h2 y hy
        · simp only [List.mem_singleton] at hy; subst hy; exact hf _ _ _ hx)
      (by simpa [Nat.add_assoc, Nat.add_comm, Nat.add_left_comm] using h3)
    simp only [List.length_append, List.length_cons, List.length_nil, Nat.zero_add] at ih
    simp only [List.length_cons, Vec.applyLoop, hw, hr, hwr, bind_ok]
    rw [ih]
    simp [Spec.visit]

/-- **C83** `vt_vec_apply` calls the callback on every element exactly once, from the first to the last,
with its index, and nothing else happens: the elements are what the callback made of them. -/
theorem C83_vec_apply (v : Arr) (h : v.WF) (f : σ → List Byte → Nat → σ × List Byte)
    (hf : ∀ st x i, x.length = v.elsize → (f st x i).2.length = v.elsize) (st : σ) :
    ∃ v', Vec.apply f v st = .ok (v', (Spec.visit f 0 v.elems st).2) ∧
      v'.WF ∧ v'.elems = (Spec.visit f 0 v.elems st).1 ∧
      v'.len = v.len ∧ v'.cap = v.cap ∧ v'.elsize = v.elsize ∧ v'.slider = v.slider := by
  obtain ⟨rest, hm, hr, hes, hl⟩ := h.split
  have hlt : v.len * v.elsize < 2 ^ 64 :=
    Nat.lt_of_le_of_lt (Nat.mul_le_mul_right _ h.le) (Nat.lt_trans h.lim (by decide))
  have e := vecApplyLoop_ok f v.elsize hf v.elems [] rest st hes (by simp) (by simpa [hl] using hlt)
  simp only [List.flatten_nil, List.nil_append, List.length_nil] at e
  rw [← hm, hl] at e
  have key := Arr.WF.mk' (v := { v with mem := (Spec.visit f 0 v.elems st).1.flatten ++ rest })
    (l := (Spec.visit f 0 v.elems st).1) (rest := rest) rfl
    (visit_all (P := fun x => x.length = v.elsize) (fun st x i hx => hf st x i hx) _ hes 0 st)
    (by simp [visit_length, hl]) h.le hr h.es h.cap h.lim
  exact ⟨_, by rw [Vec.apply, e]; rfl, key.1, key.2, rfl, rfl, rfl, rfl⟩

theorem strApplyLoop_ok (f : σ → UInt8 → Nat → σ × UInt8) : ∀ (todo done : Text) (rest : Mem) (st : σ),
    Str.applyLoop f todo.length (done.map some ++ (todo.map some ++ rest)) done.length st =
      .ok ((done ++ (Spec.visit f done.length todo st).1).map some ++ rest, (Spec.visit f done.length todo st).2)
  | [], done, rest, st => by simp [Str.applyLoop, Spec.visit]
  | x :: todo, done, rest, st => by
    have hg : getc (done.map some ++ ((x :: todo).map some ++ rest)) done.length = .ok x := by
      have := getc_mid (done.map some) (todo.map some ++ rest) x (i := done.length) (by simp)
      simpa using this
    have hp : putc (done.map some ++ ((x :: todo).map some ++ rest)) done.length (f st x done.length).2 =
        .ok ((done ++ [(f st x done.length).2]).map some ++ (todo.map some ++ rest)) := by
      have := putc_mid (done.map some) (todo.map some ++ rest) (some x) (f st x done.length).2 (i := done.length) (by simp)
      simpa using this
    have ih := strApplyLoop_ok f todo (done ++ [(f st x done.length).2]) rest (f st x done.length).1
    simp only [List.length_append, List.length_cons, List.length_nil] at ih
    simp only [List.length_cons, Str.applyLoop, hg, hp, bind_ok]
    rw [ih]
    simp [Spec.visit]

/-- **C83** `vt_str_apply` calls the callback on every character exactly once, in order, with its index;
the new text is what the callback made of the characters (a callback that writes no NUL). -/
theorem C83_str_apply (v : Arr) (t : Text) (h : IsStr v t) (f : σ → UInt8 → Nat → σ × UInt8)
    (hf : ∀ st x i, x ≠ 0 → (f st x i).2 ≠ 0) (st : σ) :
    ∃ v', Str.applyS f v st = .ok (v', (Spec.visit f 0 t st).2) ∧
      IsStr v' (Spec.visit f 0 t st).1 ∧ v'.cap = v.cap ∧ v'.slider = v.slider := by
  obtain ⟨rest, hm, hr⟩ := h.split
  have e := strApplyLoop_ok f t [] (some 0 :: rest) st
  simp only [List.map_nil, List.nil_append, List.length_nil] at e
  rw [← hm, ← h.len] at e
  refine ⟨{ v with mem := (Spec.visit f 0 t st).1.map some ++ some 0 :: rest },
    by simp only [Str.applyS, e, bind_ok], ?_, rfl, rfl⟩
  refine IsStr.mk' (rest := rest) h.es h.view rfl ?_ (by simp [visit_length, h.len])
    (by have := h.le; simp [visit_length]; omega) h.lim
  intro h'
  exact visit_all (P := fun x => x ≠ 0) hf t (fun x hx h0 => h.nz (h0 ▸ hx)) 0 st 0 h' rfl

theorem visit_trace (l : List α) : ∀ i (acc : List (α × Nat)),
    (Spec.visit (fun acc x i => (acc ++ [(x, i)], x)) i l acc) = (l, acc ++ l.zipIdx i) := by
  induction l with
  | nil => intro i acc; simp [Spec.visit]
  | cons x l ih => intro i acc; simp [Spec.visit, ih]

/-- **C83** The calls that `vt_vec_apply` makes, recorded by a callback that only records: every element
with its index, in order, and the vector is unchanged. -/
theorem C83_vec_apply_calls (v : Arr) (h : v.WF) :
    ∃ v', Vec.apply (fun acc x i => (acc ++ [(x, i)], x)) v [] = .ok (v', v.elems.zipIdx) ∧
      v'.elems = v.elems := by
  obtain ⟨v', h1, _, h3, _⟩ := C83_vec_apply v h (fun acc x i => (acc ++ [(x, i)], x)) (fun _ _ _ hx => hx) []
  rw [visit_trace] at h1 h3
  exact ⟨v', by simpa using h1, h3⟩

/-- **C83** The same for `vt_str_apply`. -/
theorem C83_str_apply_calls (v : Arr) (t : Text) (h : IsStr v t) :
    ∃ v', Str.applyS (fun acc x i => (acc ++ [(x, i)], x)) v [] = .ok (v', t.zipIdx) ∧ IsStr v' t := by
  obtain ⟨v', h1, h3, _⟩ := C83_str_apply v t h (fun acc x i => (acc ++ [(x, i)], x)) (fun _ _ _ hx => hx) []
  rw [visit_trace] at h1 h3
  exact ⟨v', by simpa using h1, h3⟩

/-- Running sums of three bytes: each element is replaced by the sum so far. -/
example : (Vec.apply (fun (s : UInt8) x _ => (s + (x.headD none).getD 0, [some (s + (x.headD none).getD 0)]))
    ⟨3, 4, 1, 0, false, [some 1, some 2, some 3, none]⟩ 0).mapOk (fun r => (r.1.mem, r.2)) =
    .ok ([some 1, some 3, some 6, none], 6) := by decide +kernel

example : (Str.applyS (fun (n : Nat) x _ => (n + 1, if n % 2 = 0 then x - 32 else x)) (strObj [97, 98, 99] 5) 0).mapOk
    (fun r => (r.1.mem.take 4, r.2)) = .ok ([some 65, some 98, some 67, some 0], 3) := by decide +kernel

end Vita
