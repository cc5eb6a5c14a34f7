import Verif.Model.SpanTyped
import Verif.Props.Small
import Verif.Props.Vec
/-!
# C105: typed access through a span
-/

namespace Vita
open Out Spec

theorem spanGetT_eq {E : Env} {m : Mem} {s : Span} {w at_ : Nat} (hw : s.elsize = w) {x : BitVec (8 * w)}
    (h : Span.get E m s at_ = .ok (Vec.leBytes w x.toNat)) : Span.getT E m s w at_ = .ok x := by
  unfold Span.get at h
  unfold Span.getT
  obtain ⟨u, e1, h⟩ := bind_eq_ok.1 h
  obtain ⟨u, e2, h⟩ := bind_eq_ok.1 h
  rw [hw] at h
  rw [e1, bind_ok, bind_ok, hw, h, bind_ok, leValue_leBytes, Nat.mod_eq_of_lt x.isLt, bind_ok]
  simp

/-- **C105** Through a span over the elements `i`, ..., `j - 1` of an array of numbers, the typed getter returns them, and in debug builds an index outside the
window terminates the program.  (Partial: as C37, the window must not begin at 0 in debug builds.) -/
theorem C105_get_partial {E : Env} {m : Mem} {w : Nat} {l : List (BitVec (8 * w))} (h : IsArray m w (l.map fun x => Vec.leBytes w x.toNat)) {i j : Nat}
    (hij : i ≤ j) (hj : j ≤ l.length) (h0 : 0 < i ∨ E.debug = false) :
    ∃ s, Span.fromTo E m i j w = .ok s ∧ (∀ k (hk : k < j - i), Span.getT E m s w k = .ok (l[i + k]'(by omega))) ∧
      (E.debug = true → ∀ k, j - i ≤ k → Span.getT E m s w k = .exit .dbgAssert) := by
  have hs := fromTo_ok (E := E) h hij (by simpa using hj) h0
  obtain ⟨s, e, -, h1, -⟩ := C37_get_partial (E := E) h hij (by simpa using hj) h0
  refine ⟨s, e, fun k hk => ?_, fun hD k hk => ?_⟩
  · rw [e] at hs
    cases hs
    refine spanGetT_eq rfl ?_
    rw [h1 k hk]
    simp
  · rw [e] at hs
    cases hs
    simp only [Span.getT, decide_eq_false (show ¬ k < j - i by omega), dassert_false hD, bind_exit]

/-- **C105** The typed setter changes the one number of the array and nothing else.  (Partial: as above.) -/
theorem C105_set_partial {E : Env} {m : Mem} {w : Nat} {l : List (BitVec (8 * w))} (h : IsArray m w (l.map fun x => Vec.leBytes w x.toNat)) {i j : Nat}
    (hij : i ≤ j) (hj : j ≤ l.length) (h0 : 0 < i ∨ E.debug = false) (x : BitVec (8 * w)) :
    ∃ s, Span.fromTo E m i j w = .ok s ∧
      (∀ k, k < j - i → ∃ m', Span.setT E m s w x k = .ok m' ∧ IsArray m' w ((l.set (i + k) x).map fun x => Vec.leBytes w x.toNat) ∧
        Span.getT E m' s w k = .ok x) ∧
      (E.debug = true → ∀ k, j - i ≤ k → Span.setT E m s w x k = .exit .dbgAssert) := by
  obtain ⟨s, e, h1, h2⟩ := C37_set_partial (E := E) h hij (by simpa using hj) h0 (x := Vec.leBytes w x.toNat) (leBytes_length _ _) []
  rw [List.append_nil] at h1 h2
  refine ⟨s, e, fun k hk => ?_, h2⟩
  obtain ⟨m', e', ha⟩ := h1 k hk
  rw [← List.map_set (f := fun x : BitVec (8 * w) => Vec.leBytes w x.toNat)] at ha
  refine ⟨m', e', ha, ?_⟩
  obtain ⟨s', es, hg, -⟩ := C105_get_partial (E := E) ha hij (by simpa using hj) h0
  have := fromTo_ok (E := E) ha hij (by simpa using hj) h0
  have h3 := fromTo_ok (E := E) h hij (by simpa using hj) h0
  rw [es] at this
  rw [e] at h3
  cases this
  cases h3
  rw [hg k hk, List.getElem_set_self]

/-- **C105** (counterexample for other types) A setter whose type is smaller than the elements reads beyond its parameter. -/
theorem C105_set_smaller_ub {E : Env} {m : Mem} {s : Span} {w k : Nat} (x : BitVec (8 * w)) (hk : k < s.len) (hw : w < s.elsize) :
    Span.setT E m s w x k = .ub := by
  simp only [Span.setT, Span.set, decide_eq_true hk, dassert_true, bind_ok, memcpyIn]
  rw [readN, if_neg (by rw [leBytes_length]; omega)]
  rfl

/-- **C105** A getter whose type is larger than the elements reads beyond the memory at its last element. -/
theorem C105_get_larger_ub {E : Env} {m : Mem} {s : Span} {w k : Nat} (hk : k < s.len) (hm : s.off + k * s.elsize + s.elsize = m.length)
    (hlim : m.length < 2 ^ 56) (hw : s.elsize < w) : Span.getT E m s w k = .ub := by
  have w1 : wmul k s.elsize = k * s.elsize := wmul_eq (by omega)
  simp only [Span.getT, decide_eq_true hk, dassert_true, bind_ok, w1]
  rw [readN, if_neg (by omega)]
  rfl

/-- Three numbers of 16 bits, the window of the last two. -/
example : IsArray [some 1, some 2, some 3, some 4, some 5, some 6] 2 ([0x0201#16, 0x0403#16, 0x0605#16].map fun x => Vec.leBytes 2 x.toNat) :=
  ⟨by decide, by decide, by omega, by simp⟩
example : (do let s ← Span.fromTo exE [some 1, some 2, some 3, some 4, some 5, some 6] 1 3 2
              let m ← Span.setT exE [some 1, some 2, some 3, some 4, some 5, some 6] s 2 0xABCD 1
              let y ← Span.getT exE m s 2 1
              .ok (m, y)) = .ok ([some 1, some 2, some 3, some 4, some 0xCD, some 0xAB], 0xABCD#16) := by decide +kernel

end Vita
