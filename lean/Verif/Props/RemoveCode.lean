import Verif.Model.RemoveCode
import Verif.Props.Vec
import Verif.Props.Plist
/-!
# C05, C13, C14: every strategy number, and fast removal by value
-/

namespace Vita
open Out Spec

/-- The place of the removed member is taken by the last one: what a fast removal has to do. -/
structure TakenByLast (l l' : List α) (i : Nat) : Prop where
  length : l'.length + 1 = l.length
  others : ∀ j, j < l'.length → j ≠ i → l'[j]? = l[j]?
  last : i < l'.length → l'[i]? = l.getLast?

theorem swapRemove_takenByLast {l : List α} {i : Nat} (hi : i < l.length) : TakenByLast l (Spec.swapRemove l i) i := by
  have hne : l ≠ [] := by rintro rfl; simp at hi
  have e : Spec.swapRemove l i = (l.set i (l.getLast hne)).dropLast := by
    unfold Spec.swapRemove
    rw [List.getLast?_eq_some_getLast hne]
  have hlen : (Spec.swapRemove l i).length + 1 = l.length := by
    rw [e, List.length_dropLast, List.length_set]; omega
  refine ⟨hlen, fun j hj hji => ?_, fun hj => ?_⟩
  · rw [e, List.getElem?_dropLast, List.length_set, if_pos (by omega), List.getElem?_set_ne (Ne.symm hji)]
  · rw [e, List.getElem?_dropLast, List.length_set, if_pos (by omega), List.getElem?_set_self hi, List.getLast?_eq_some_getLast hne]

theorem plRemoveFast_holds {E : Env} {p : Arr} {s : Spec.SeqState Ptr} (h : PlHolds p s) {i : Nat} (hi : i < s.elems.length) :
    ∃ p', Plist.remove E p i .fast = .ok p' ∧ PlHolds p' ⟨Spec.swapRemove s.elems i, s.cap⟩ := by
  have hl : i < p.len := by rw [h.len]; exact hi
  obtain ⟨p', h1, h2, h3, h4⟩ := removeFast_spec (E := swapEnv) rfl h.wf hl (by rw [h.es]; rfl)
  refine ⟨p', plRemoveFast_of E p p' h.wf h.es hl h1, h3, ?_, ?_⟩
  · rw [h4.1, h.es]
  · rw [h2]
    have he := h.elems
    have hc := h.cap
    simp [encState, he, hc, swapRemove_map]

/-- **C14** Fast removal by value, of any pointer from any list, in all builds: if the pointer occurs, its first occurrence goes and the last member takes its
place; otherwise nothing changes. -/
theorem C14_remove_element_fast {E : Env} {p : Arr} {s : Spec.SeqState Ptr} (h : PlHolds p s) {q : Ptr} (hq : q ≠ 0) :
    (q ∉ s.elems → Plist.removeElement E p q .fast = .ok p) ∧
    (∀ a b, s.elems = a ++ q :: b → q ∉ a → ∃ p' l, Plist.removeElement E p q .fast = .ok p' ∧ PlHolds p' ⟨l, s.cap⟩ ∧
      TakenByLast s.elems l a.length) := by
  obtain ⟨r, hr, hi⟩ := plCanFind (E := E) h hq
  have e : Plist.removeElement E p q .fast = if r ≥ 0 then Plist.remove E p r.toNat .fast else .ok p := by
    simp only [Plist.removeElement, ptr_ne_zero hq, dassert_true, bind_ok, hr]
  rw [e]
  refine ⟨fun hn => ?_, fun a b hs ha => ?_⟩
  · rcases hi with ⟨rfl, -⟩ | ⟨i, -, h2, -⟩
    · rfl
    · exact absurd (List.mem_of_getElem? h2) hn
  · have hri : r = a.length := by
      rcases hi with ⟨-, hn⟩ | ⟨i, rfl, h2, h3⟩
      · exact absurd (by rw [hs]; simp) hn
      · rw [hs] at h2 h3
        rcases Nat.lt_trichotomy i a.length with hlt | heq | hgt
        · rw [List.getElem?_append_left hlt] at h2
          exact absurd (List.mem_of_getElem? h2) ha
        · rw [heq]
        · exact absurd (by simp) (h3 a.length hgt)
    subst hri
    have hlt : a.length < s.elems.length := by rw [hs]; simp
    rw [if_pos (by omega), Int.toNat_natCast]
    obtain ⟨p', g1, g2⟩ := plRemoveFast_holds (E := E) h hlt
    exact ⟨p', _, g1, g2, swapRemove_takenByLast hlt⟩

/-- **C05, C13, C14** The strategy may be any number.  0 and 1 are the two strategies.  All others end debug builds, and remove as 1 does in release builds. -/
theorem C05_any_strategy (E : Env) (v : Arr) (i : Nat) (q : Ptr) :
    (Vec.removeCode E v i 0 = Vec.remove E v i .stable ∧ Vec.removeCode E v i 1 = Vec.remove E v i .fast) ∧
    (Plist.removeCode E v i 0 = Plist.remove E v i .stable ∧ Plist.removeCode E v i 1 = Plist.remove E v i .fast) ∧
    (Plist.removeElementCode E v q 0 = Plist.removeElement E v q .stable ∧ Plist.removeElementCode E v q 1 = Plist.removeElement E v q .fast) ∧
    ∀ rs, 2 ≤ rs →
      (E.debug = true → Vec.removeCode E v i rs = .exit .dbgAssert ∧ Plist.removeCode E v i rs = .exit .dbgAssert ∧
        Plist.removeElementCode E v q rs = .exit .dbgAssert) ∧
      (E.debug = false → Vec.removeCode E v i rs = Vec.remove E v i .fast ∧ Plist.removeCode E v i rs = Plist.remove E v i .fast ∧
        Plist.removeElementCode E v q rs = Plist.removeElement E v q .fast) := by
  have t0 : decide (0 < 2) = true := rfl
  have t1 : decide (1 < 2) = true := rfl
  have s0 : strategyOf 0 = .stable := rfl
  have s1 : strategyOf 1 = .fast := rfl
  refine ⟨⟨?_, ?_⟩, ⟨?_, ?_⟩, ⟨?_, ?_⟩, fun rs hrs => ⟨fun hE => ?_, fun hE => ?_⟩⟩
  · simp only [Vec.removeCode, t0, dassert_true, bind_ok, s0]
  · simp only [Vec.removeCode, t1, dassert_true, bind_ok, s1]
  · simp only [Plist.removeCode, t0, dassert_true, bind_ok, s0]
  · simp only [Plist.removeCode, t1, dassert_true, bind_ok, s1]
  · simp only [Plist.removeElementCode, Plist.removeElement, Plist.removeCode, t0, dassert_true, bind_ok, s0]
  · simp only [Plist.removeElementCode, Plist.removeElement, Plist.removeCode, t1, dassert_true, bind_ok, s1]
  · have f : decide (rs < 2) = false := decide_eq_false (by omega)
    simp only [Vec.removeCode, Plist.removeCode, Plist.removeElementCode, f, dassert_false hE, bind_exit, true_and]
    cases hq : (q != 0)
    · rw [dassert_false hE, bind_exit]
    · rw [dassert_true, bind_ok]
  · have s2 : strategyOf rs = .fast := if_neg (by omega)
    simp only [Vec.removeCode, Plist.removeCode, Plist.removeElementCode, Plist.removeElement, dassert_release hE, bind_ok, s2, and_self]

/-- Removing 7 from 9, 7, 8, 7, 5: the last member moves to the place of the first 7. -/
example : (Plist.create exE 8 >>= fun p => runPl exE p [.pushBack 9, .pushBack 7, .pushBack 8, .pushBack 7, .pushBack 5] >>= fun p =>
      Plist.removeElementCode exE p 7 1 >>= fun p => Out.ok (Plist.get exE p 0, Plist.get exE p 1, Plist.get exE p 2, Plist.get exE p 3, p.len)) =
    .ok (.ok 9, .ok 5, .ok 8, .ok 7, 4) := by decide +kernel
example : [9, 7, 8, 7, 5] = [9] ++ 7 :: [8, 7, 5] ∧ 7 ∉ [9] ∧ TakenByLast [9, 7, 8, 7, 5] [9, 5, 8, 7] 1 :=
  ⟨rfl, by decide, swapRemove_takenByLast (l := [9, 7, 8, 7, 5]) (i := 1) (by decide)⟩

end Vita
