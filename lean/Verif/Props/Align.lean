import Verif.Model.Align
import Verif.Props.Vec
import Verif.Props.Small
/-!
# C120: elements lie at aligned addresses

`calloc` and `realloc` return multiples of 16 on x86-64 (C11 7.22.3 §1: suitably aligned for any object), so the buffer of every vector and list begins at one.
An alignment is a divisor of 16.
-/

namespace Vita
open Out Spec

theorem dvd_word {a : Nat} (h : a ∣ 16) : a ∣ 2 ^ 64 := Nat.dvd_trans h (by decide)

theorem dvd_wadd {a x y : Nat} (h : a ∣ 16) : a ∣ wadd x y ↔ a ∣ x + y := by
  unfold wadd
  exact Nat.dvd_mod_iff (dvd_word h)

theorem dvd_wmul {a x y : Nat} (h : a ∣ 16) : a ∣ wmul x y ↔ a ∣ x * y := by
  unfold wmul
  exact Nat.dvd_mod_iff (dvd_word h)

theorem elem_aligned {a base i elsize : Nat} (ha : a ∣ 16) (hb : a ∣ base) (he : a ∣ elsize) : a ∣ wadd base (wmul i elsize) :=
  (dvd_wadd ha).2 ((Nat.dvd_add_right hb).2 ((dvd_wmul ha).2 (Nat.dvd_trans he (Nat.dvd_mul_left elsize i))))

theorem load_aligned {base off w : Nat} {m : Mem} (h : w ∣ wadd base off) : Align.load base m off w = readN m off w :=
  if_pos (Nat.mod_eq_zero_of_dvd h)

theorem load_misaligned {base off w : Nat} {m : Mem} (h : ¬ w ∣ wadd base off) : Align.load base m off w = .ub :=
  if_neg fun e => h (Nat.dvd_of_mod_eq_zero e)

/-- **C120.** Every pointer to an element that a vector returns is a multiple of every alignment that divides the size of the elements. -/
theorem C120_pointers {E : Env} {base a : Nat} {v : Arr} (hb : 16 ∣ base) (ha : a ∣ 16) (he : a ∣ v.elsize) :
    (∀ i p, Align.vecGet E base v i = .ok p → a ∣ p) ∧ (∀ p, Align.vecPopGet base v = some p → a ∣ p) ∧
    (∀ p, Align.slideFront base v = some p → a ∣ p) := by
  have key : ∀ i, a ∣ wadd base (wmul i v.elsize) := fun i => elem_aligned ha (Nat.dvd_trans ha hb) he
  refine ⟨fun i p h => ?_, fun p h => ?_, fun p h => ?_⟩
  · unfold Align.vecGet at h
    obtain ⟨_, -, h⟩ := bind_eq_ok.1 h
    obtain ⟨_, -, h⟩ := bind_eq_ok.1 h
    cases h
    exact key i
  · unfold Align.vecPopGet at h
    split at h
    · cases h
      exact key _
    · cases h
  · unfold Align.slideFront at h
    split at h
    · cases h
      exact key _
    · cases h

/-- **C120.** Which elements these pointers point to: the element asked for, the last one, the one the slider is at; otherwise there is none. -/
theorem C120_elements {E : Env} {base : Nat} {v : Arr} (hv : base + v.len * v.elsize < 2 ^ 64) (hl : v.len < 2 ^ 64) :
    (∀ i, i < v.len → Align.vecGet E base v i = .ok (base + i * v.elsize)) ∧
    Align.vecPopGet base v = (if v.len = 0 then none else some (base + (v.len - 1) * v.elsize)) ∧
    Align.slideFront base v = (if v.slider < v.len then some (base + v.slider * v.elsize) else none) := by
  have key : ∀ i, i < v.len → wadd base (wmul i v.elsize) = base + i * v.elsize := by
    intro i hi
    have : i * v.elsize ≤ v.len * v.elsize := Nat.mul_le_mul_right _ (Nat.le_of_lt hi)
    have e : wmul i v.elsize = i * v.elsize := wmul_eq (by omega)
    rw [e, wadd_eq (by omega)]
  refine ⟨fun i hi => ?_, ?_, ?_⟩
  · unfold Align.vecGet
    simp only [hi, decide_true, dassert_true, bind_ok, key i hi]
  · unfold Align.vecPopGet
    by_cases h : v.len = 0
    · rw [if_neg (by omega), if_pos h]
    · have e : wsub v.len 1 = v.len - 1 := wsub_eq (by omega) hl
      rw [if_pos (by omega), if_neg h, e, key _ (by omega)]
  · unfold Align.slideFront
    by_cases h : v.slider < v.len
    · have e : wadd v.slider 1 = v.slider + 1 := wadd_eq (by omega)
      have e' : wsub (v.slider + 1) 1 = v.slider := (wsub_eq (by omega) (by omega)).trans (Nat.add_sub_cancel ..)
      rw [if_pos h, if_pos h, e, e', key _ h]
    · rw [if_neg h, if_neg h]

/-- **C120.** Two elements of a vector whose buffer lies in the address space do not overlap. -/
theorem C120_disjoint {E : Env} {base : Nat} {v : Arr} (hv : base + v.len * v.elsize < 2 ^ 64) {i j : Nat} (hij : i < j) (hj : j < v.len) :
    ∃ p q, Align.vecGet E base v i = .ok p ∧ Align.vecGet E base v j = .ok q ∧ base ≤ p ∧ p + v.elsize ≤ q ∧ q + v.elsize ≤ base + v.len * v.elsize := by
  have h1 : (i + 1) * v.elsize ≤ j * v.elsize := Nat.mul_le_mul_right _ hij
  have h2 : (j + 1) * v.elsize ≤ v.len * v.elsize := Nat.mul_le_mul_right _ hj
  rw [Nat.add_mul, Nat.one_mul] at h1 h2
  have ei : wadd base (wmul i v.elsize) = base + i * v.elsize := by rw [wmul_eq (by omega), wadd_eq (by omega)]
  have ej : wadd base (wmul j v.elsize) = base + j * v.elsize := by rw [wmul_eq (by omega), wadd_eq (by omega)]
  refine ⟨base + i * v.elsize, base + j * v.elsize, ?_, ?_, by omega, by omega, by omega⟩
  · simp only [Align.vecGet, decide_eq_true (Nat.lt_trans hij hj), dassert_true, bind_ok, ei]
  · simp only [Align.vecGet, decide_eq_true hj, dassert_true, bind_ok, ej]

example : Align.vecGet exE 32 ⟨3, 4, 4, 0, false, List.replicate 16 none⟩ 2 = .ok 40 := by decide +kernel
example : Align.vecPopGet 32 ⟨3, 4, 4, 1, false, List.replicate 16 none⟩ = some 40 ∧
    Align.slideFront 32 ⟨3, 4, 4, 1, false, List.replicate 16 none⟩ = some 36 := by decide +kernel

/-- **C120.** The typed functions of a vector read aligned objects: they do what they do without the check. -/
theorem C120_vec {E : Env} {base w : Nat} {v : Arr} (hb : 16 ∣ base) (hw : w ∣ 16) (he : w ∣ v.elsize) :
    (∀ i, Align.vecGetT E base v w i = Vec.getT E v w i) ∧ Align.vecPopGetT base v w = Vec.popGetT v w := by
  have key : ∀ i, Align.load base v.mem (wmul i v.elsize) w = readN v.mem (wmul i v.elsize) w :=
    fun i => load_aligned (elem_aligned hw (Nat.dvd_trans hw hb) he)
  refine ⟨fun i => ?_, ?_⟩
  · simp only [Align.vecGetT, Vec.getT, key]
  · simp only [Align.vecPopGetT, Vec.popGetT, key]

/-- **C120.** The pointers that a span returns are aligned, and its typed functions read aligned objects, when the pointer to its first element is aligned. -/
theorem C120_span {E : Env} {base w : Nat} {m : Mem} {s : Span} (hw : w ∣ 16) (hb : w ∣ base + s.off) (he : w ∣ s.elsize) :
    (∀ i, Align.spanGetT E base m s w i = Span.getT E m s w i) ∧ ∀ i p, Align.spanGet E base s i = .ok p → w ∣ p := by
  have key : ∀ i, w ∣ wadd base (s.off + wmul i s.elsize) := fun i => (dvd_wadd hw).2 (by
    rw [← Nat.add_assoc]
    exact (Nat.dvd_add_right hb).2 ((dvd_wmul hw).2 (Nat.dvd_trans he (Nat.dvd_mul_left _ i))))
  refine ⟨fun i => ?_, fun i p h => ?_⟩
  · simp only [Align.spanGetT, Span.getT, load_aligned (key i)]
  · unfold Align.spanGet at h
    obtain ⟨_, -, h⟩ := bind_eq_ok.1 h
    obtain ⟨_, -, h⟩ := bind_eq_ok.1 h
    cases h
    exact key i

/-- **C120.** The pointer returned by `vt_span_get` is that of the element asked for. -/
theorem C120_span_element {E : Env} {base : Nat} {s : Span} (hv : base + s.off + s.len * s.elsize < 2 ^ 64) {i : Nat} (hi : i < s.len) :
    Align.spanGet E base s i = .ok (base + s.off + i * s.elsize) := by
  have : i * s.elsize ≤ s.len * s.elsize := Nat.mul_le_mul_right _ (Nat.le_of_lt hi)
  have e : wmul i s.elsize = i * s.elsize := wmul_eq (by omega)
  unfold Align.spanGet
  simp only [hi, decide_true, dassert_true, bind_ok, e]
  rw [wadd_eq (by omega), Nat.add_assoc]

/-- **C120.** So it is for every part of an array of numbers that a span can be made of. -/
theorem C120_span_array {E : Env} {base w : Nat} {m : Mem} {i j : Nat} {s : Span} (hw : w ∣ 16) (hb : w ∣ base)
    (h : Span.from_ E j w = .ok s ∨ Span.fromTo E m i j w = .ok s) : ∀ k, Align.spanGetT E base m s w k = Span.getT E m s w k := by
  rcases h with h | h
  · unfold Span.from_ at h
    obtain ⟨_, -, h⟩ := bind_eq_ok.1 h
    obtain ⟨_, -, h⟩ := bind_eq_ok.1 h
    cases h
    exact (C120_span hw hb (Nat.dvd_refl w)).1
  · unfold Span.fromTo at h
    obtain ⟨_, -, h⟩ := bind_eq_ok.1 h
    obtain ⟨_, -, h⟩ := bind_eq_ok.1 h
    obtain ⟨_, -, h⟩ := bind_eq_ok.1 h
    split at h
    · cases h
    · cases h
      exact (C120_span hw ((Nat.dvd_add_right hb).2 ((dvd_wmul hw).2 (Nat.dvd_mul_left _ _))) (Nat.dvd_refl w)).1

/-- **C120.** The pointers of a list are read and written at aligned addresses. -/
theorem C120_plist {base : Nat} (hb : 16 ∣ base) (m : Mem) (i : Nat) :
    Align.loadPtr base m i = loadPtr m i ∧ ∀ q, Align.storePtr base m i q = storePtr m i q := by
  have key : 8 ∣ wadd base (i * 8) := by
    have h8 : 8 ∣ base := Nat.dvd_trans (by decide) hb
    unfold wadd
    omega
  refine ⟨?_, fun q => if_pos (Nat.mod_eq_zero_of_dvd key)⟩
  unfold Align.loadPtr loadPtr
  rw [load_aligned key]

example : Align.vecGetT exE 32 ⟨2, 2, 2, 0, false, [some 1, some 2, some 3, some 4]⟩ 2 1 = .ok 0x0403#16 := by decide +kernel
example : Align.spanGet exE 32 ⟨2, 1, 2⟩ 0 = .ok 34 := by decide +kernel
example : Align.spanGetT exE 32 [some 1, some 2, some 3, some 4] ⟨2, 1, 2⟩ 2 0 = .ok 0x0403#16 := by decide +kernel
example : Align.loadPtr 32 ((ptrBytes 7#64) ++ ptrBytes 9#64) 1 = .ok 9#64 := by decide +kernel

/-- **C120** (the limits) A span over memory that is not aligned for the type: every access to an element is undefined. -/
theorem C120_span_undefined {E : Env} {base w : Nat} {m : Mem} {s : Span} (hw : w ∣ 16) (hb : ¬ w ∣ base + s.off) (he : w ∣ s.elsize) {i : Nat}
    (hi : i < s.len) : Align.spanGetT E base m s w i = .ub := by
  have key : Align.load base m (s.off + wmul i s.elsize) w = .ub :=
    load_misaligned fun h => hb (by
      have h := (dvd_wadd hw).1 h
      rw [← Nat.add_assoc] at h
      exact (Nat.dvd_add_left ((dvd_wmul hw).2 (Nat.dvd_trans he (Nat.dvd_mul_left _ i)))).1 h)
  simp only [Align.spanGetT, decide_eq_true hi, dassert_true, bind_ok, key, bind_ub]

/-- **C120** (the limits) A vector whose elements have a size that the type's size does not divide: reading its second element is undefined. -/
theorem C120_vec_undefined {E : Env} {base w : Nat} {v : Arr} (hb : 16 ∣ base) (hw : w ∣ 16) (he : ¬ w ∣ v.elsize) (hl : 1 < v.len) :
    Align.vecGetT E base v w 1 = .ub := by
  have key : Align.load base v.mem (wmul 1 v.elsize) w = .ub :=
    load_misaligned fun h => he (by
      have h := (Nat.dvd_add_right (Nat.dvd_trans hw hb)).1 ((dvd_wadd hw).1 h)
      have h := (dvd_wmul hw).1 h
      rwa [Nat.one_mul] at h)
  simp only [Align.vecGetT, decide_eq_true hl, dassert_true, bind_ok, key, bind_ub]

example : Align.spanGetT exE 32 [some 1, some 2, some 3, some 4] ⟨1, 1, 2⟩ 2 0 = .ub := by decide +kernel
example : Align.vecGetT exE 32 ⟨2, 2, 3, 0, false, List.replicate 6 (some 1)⟩ 2 1 = .ub := by decide +kernel

end Vita
