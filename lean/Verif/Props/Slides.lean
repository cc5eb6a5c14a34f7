import Verif.Lemmas.StrOps
import Verif.Props.Plist
import Verif.Props.StrEdit
import Verif.Props.Iter
/-!
# Sliding over strings and pointer lists, and the remaining reading calls (C02, C09, C10)
-/

namespace Vita
open Out Spec

seal wadd wsub wmul

/-! ### Strings

A string is an array with one byte more than its capacity; the slide functions do not look at the
capacity, so they treat it like an array with that capacity. -/

theorem front_cap (v : Arr) (c : Nat) :
    Slide.front { v with cap := c } = (Slide.front v).mapOk fun r => ({ r.1 with cap := c }, r.2) := by
  unfold Slide.front
  dsimp only
  split
  · cases readN v.mem (wmul (wsub (wadd v.slider 1) 1) v.elsize) v.elsize <;> rfl
  · rfl

theorem back_cap (v : Arr) (c : Nat) :
    Slide.back { v with cap := c } = (Slide.back v).mapOk fun r => ({ r.1 with cap := c }, r.2) := by
  unfold Slide.back
  dsimp only
  split
  · cases readN v.mem (wmul (wsub (wsub v.len (wadd v.slider 1)) 2) v.elsize) v.elsize <;> rfl
  · rfl

theorem slides_cap {f : Arr → Out (Arr × Option (List Byte))}
    (hf : ∀ v c, f { v with cap := c } = (f v).mapOk fun r => ({ r.1 with cap := c }, r.2)) (c : Nat) :
    ∀ k v, slides f k { v with cap := c } = slides f k v
  | 0, v => rfl
  | k + 1, v => by
    simp only [slides]
    rw [hf]
    cases f v with
    | ok r =>
      simp only [mapOk, bind_ok]
      rw [slides_cap hf c k r.1]
    | exit w => rfl
    | ub => rfl
    | fuel => rfl

theorem IsStr.wf {v : Arr} {t : Text} (h : IsStr v t) : ({ v with cap := v.cap + 1 } : Arr).WF := by
  have h1 := h.le
  have h2 := h.len
  have h3 := h.size
  have h4 := h.lim
  have h5 := h.es
  refine ⟨?_, ?_, ?_, ?_, ?_⟩ <;> dsimp only <;> (try rw [h5]) <;> omega

theorem IsStr.elems {v : Arr} {t : Text} (h : IsStr v t) : v.elems = t.map fun c => [some c] := by
  obtain ⟨tail, hm⟩ := h.cstr.begins
  apply List.ext_getElem?
  intro i
  rw [Arr.elems, chunks_getElem?, h.es, hm, h.len, List.getElem?_map]
  by_cases hi : i < t.length
  · rw [if_pos hi, Nat.mul_one, List.getElem?_eq_getElem hi]
    rw [List.drop_append_of_le_length (by simp; omega), List.drop_eq_getElem_cons (by simp; omega)]
    simp
  · rw [if_neg hi, List.getElem?_eq_none (by omega)]; rfl

/-- **C09** (strings) From a reset slider, call number `j` of `vt_str_slide_front` returns a pointer to the
character number `j mod (n+1)` of the text, that is the characters in order, then NULL, and so on for
ever. -/
theorem C09_str_slide_front_periodic {v : Arr} {t : Text} (h : IsStr v t) (k : Nat) :
    slides Slide.front k (Slide.reset v)
      = .ok ((List.range k).map fun j => (t[j % (t.length + 1)]?).map fun c => [some c]) := by
  have e := C09_slide_front_periodic _ h.wf k
  rw [show Slide.reset { v with cap := v.cap + 1 } = { Slide.reset v with cap := v.cap + 1 } from rfl,
    slides_cap front_cap] at e
  rw [e]
  congr 1
  apply List.map_congr_left
  intro j _
  show v.elems[j % (v.len + 1)]? = _
  rw [h.elems, h.len, List.getElem?_map]

/-- **C10** (strings, refutation) No backward traversal of a non-empty string succeeds: within as many calls
as there are characters `vt_str_slide_back` computes an address in front of the text. -/
theorem C10_str_slide_back_always_leaves_buffer {v : Arr} {t : Text} (h : IsStr v t) (h0 : t ≠ []) :
    slides Slide.back t.length (Slide.reset v) = .ub := by
  have hp : 0 < t.length := List.length_pos_iff.2 h0
  have hl := h.len
  have e := C10_slide_back_always_leaves_buffer _ h.wf (by show 0 < v.len; omega)
  rw [show Slide.reset { v with cap := v.cap + 1 } = { Slide.reset v with cap := v.cap + 1 } from rfl,
    slides_cap back_cap, show Vec.length { v with cap := v.cap + 1 } = v.len from rfl, hl] at e
  exact e

/-- **C10** (strings, partial: the full claim is that the last character comes first and that all come) Before
that, the calls return the characters from the third last on down to the first. -/
theorem C10_str_slide_back_partial {v : Arr} {t : Text} (h : IsStr v t) (k : Nat) (hk : k + 2 ≤ t.length) :
    slides Slide.back k (Slide.reset v)
      = .ok ((List.range k).map fun j => (t[t.length - 3 - j]?).map fun c => [some c]) := by
  have hl := h.len
  have e := C10_slide_back_partial _ h.wf k (by show k + 2 ≤ v.len; omega)
  rw [show Slide.reset { v with cap := v.cap + 1 } = { Slide.reset v with cap := v.cap + 1 } from rfl,
    slides_cap back_cap] at e
  rw [e]
  congr 1
  apply List.map_congr_left
  intro j _
  show v.elems[v.len - 3 - j]? = _
  rw [h.elems, h.len, List.getElem?_map]

example : IsStr (strObj [97, 98, 99, 100] 2) [97, 98, 99, 100] ∧
    slides Slide.front 6 (strObj [97, 98, 99, 100] 2)
      = .ok [some [some 97], some [some 98], some [some 99], some [some 100], none, some [some 97]] ∧
    slides Slide.back 2 (strObj [97, 98, 99, 100] 2) = .ok [some [some 98], some [some 97]] ∧
    slides Slide.back 3 (strObj [97, 98, 99, 100] 2) = .ub :=
  ⟨⟨rfl, rfl, by decide +kernel, rfl, by decide +kernel, by decide +kernel⟩, by decide +kernel, by decide +kernel, by decide +kernel⟩

/-! ### Pointer lists -/

/-- The pointers returned by `k` consecutive calls of `vt_plist_slide_front` (NULL is 0). -/
def plFronts : Nat → Arr → Out (List Ptr)
  | 0, _ => .ok []
  | k + 1, p => Plist.slideFront p >>= fun r => plFronts k r.1 >>= fun rs => .ok (r.2 :: rs)

/-- **C09** (pointer lists) From a reset slider, call number `j` of `vt_plist_slide_front` returns pointer number
`j mod (n+1)` of the list, NULL for number `n`. -/
theorem C09_plist_slide_front_periodic (p : Arr) (s : Spec.SeqState Ptr) (h : PlHolds p s) (k : Nat) :
    plFronts k (Slide.reset p)
      = .ok ((List.range k).map fun j => (s.elems[j % (s.elems.length + 1)]?).getD 0) := by
  have gen : ∀ (k : Nat) (p : Arr), PlHolds p s → p.slider ≤ s.elems.length →
      plFronts k p = .ok ((List.range k).map fun j => (s.elems[(p.slider + j) % (s.elems.length + 1)]?).getD 0) := by
    intro k
    induction k with
    | zero => intro p _ _; simp [plFronts]
    | succ k ih =>
      intro p h hs
      rw [List.range_succ_eq_map, List.map_cons, List.map_map, plFronts]
      by_cases hlt : p.slider < s.elems.length
      · rw [(C09_plist_slide_front p s h).1 hlt, bind_ok, ih _ (h.slide _) (by simp only; omega), bind_ok]
        simp only [Nat.add_zero, Nat.mod_eq_of_lt (show p.slider < s.elems.length + 1 by omega),
          List.getElem?_eq_getElem hlt, Option.getD_some]
        congr 2
        apply List.map_congr_left
        intro j _
        simp only [Function.comp]
        rw [show p.slider + 1 + j = p.slider + Nat.succ j by omega]
      · have e : p.slider = s.elems.length := by omega
        rw [(C09_plist_slide_front p s h).2 (by omega), bind_ok, ih _ (h.slide _) (by simp only; omega), bind_ok]
        simp only [Nat.add_zero, e, Nat.mod_eq_of_lt (show s.elems.length < s.elems.length + 1 by omega),
          List.getElem?_eq_none (Nat.le_refl _), Option.getD_none]
        congr 2
        apply List.map_congr_left
        intro j _
        simp only [Function.comp]
        rw [show s.elems.length + Nat.succ j = j + (s.elems.length + 1) by omega, Nat.add_mod_right, Nat.zero_add]
  have := gen k (Slide.reset p) (h.slide 0) (by simp [Slide.reset])
  rw [this]
  simp [Slide.reset]

example :
    ∃ p, (Plist.create exE 2 >>= fun p => runPl exE p [.pushBack 7, .pushBack 8]) = .ok p ∧
      plFronts 5 p = .ok [7, 8, 0, 7, 8] := by
  refine ⟨⟨2, 2, 8, 0, false, ptrBytes 7 ++ ptrBytes 8⟩, ?_, ?_⟩ <;> decide +kernel

/-! ### The other reading calls on vectors -/

theorem bytesEq_defined : ∀ (a b : List Byte), a.length = b.length → none ∉ a → none ∉ b → ∃ r, bytesEq a b = .ok r
  | [], [], _, _, _ => ⟨true, rfl⟩
  | none :: _, _, _, h, _ => by simp at h
  | _, none :: _, _, _, h => by simp at h
  | some a :: as, some b :: bs, hl, ha, hb => by
    simp only [List.length_cons, Nat.add_right_cancel_iff] at hl
    simp only [List.mem_cons, not_or] at ha hb
    obtain ⟨r, hr⟩ := bytesEq_defined as bs hl ha.2 hb.2
    rw [bytesEq]
    split
    · exact ⟨r, hr⟩
    · exact ⟨false, rfl⟩

theorem leValue_defined : ∀ l : List Byte, none ∉ l → ∃ x, Vec.leValue l = .ok x
  | [], _ => ⟨0, rfl⟩
  | none :: _, h => by simp at h
  | some b :: t, h => by
    simp only [List.mem_cons, not_or] at h
    obtain ⟨x, hx⟩ := leValue_defined t h.2
    exact ⟨_, by rw [Vec.leValue, hx, bind_ok]⟩

theorem WF.slot {v : Arr} (h : v.WF) {i : Nat} (hi : i < v.len) :
    wmul i v.elsize = i * v.elsize ∧ i * v.elsize + v.elsize ≤ v.mem.length := by
  have hlt := h.lenlt
  have hm := h.mem
  have i2 : v.len * v.elsize ≤ v.cap * v.elsize := Nat.mul_le_mul_right _ h.le
  have i0 : (i + 1) * v.elsize ≤ v.len * v.elsize := Nat.mul_le_mul_right _ hi
  rw [Nat.add_mul, Nat.one_mul] at i0
  exact ⟨wmul_eq (by omega), by omega⟩

theorem canFindLoop_defined {v : Arr} (h : v.WF) (hd : none ∉ v.mem) {x : List Byte} (hx : x.length = v.elsize) (hxd : none ∉ x) :
    ∀ k i, i + k = v.len → ∃ r, Vec.canFindLoop v x k i = .ok r
  | 0, _, _ => ⟨-1, rfl⟩
  | k + 1, i, hi => by
    obtain ⟨e, hb⟩ := WF.slot h (i := i) (by omega)
    obtain ⟨r, hr⟩ := bytesEq_defined ((v.mem.drop (i * v.elsize)).take v.elsize) x
      (by rw [List.length_take, List.length_drop]; omega)
      (fun hn => hd (List.mem_of_mem_drop (List.mem_of_mem_take hn))) hxd
    rw [Vec.canFindLoop, e, readN_ok hb, bind_ok, hr, bind_ok]
    split
    · exact ⟨_, rfl⟩
    · exact canFindLoop_defined h hd hx hxd k (i + 1) (by omega)

/-- **C02** (partial: `vt_vec_slide_back` is excepted, see `C02_slide_back_leaves_buffer`, and so are typed accessors of another
width, see `C02_wrong_type_leaves_buffer`.)  The other reading calls do not leave the buffer either: duplicating ends normally
or for want of memory or, for an empty vector, at an assertion; `vt_vec_apply` returns for every callback that writes no
more than its element; searching and the typed accessors of the right width return if the bytes are defined. -/
theorem C02_more_reads_safe_partial (E : Env) (hD : E.debug = true) (v : Arr) (h : v.WF) :
    (Vec.dup E v).Safe ∧
    (∀ (σ : Type) (f : σ → List Byte → Nat → σ × List Byte) (st : σ),
      (∀ st x i, x.length = v.elsize → (f st x i).2.length = v.elsize) → ∃ r, Vec.apply f v st = .ok r) ∧
    (none ∉ v.mem → ∀ val : Mem, v.elsize ≤ val.length → none ∉ val → ∃ r, Vec.canFind v val = .ok r) ∧
    (none ∉ v.mem → ∀ i, (Vec.getT E v v.elsize i).Safe) ∧
    (none ∉ v.mem → ∃ r, Vec.popGetT v v.elsize = .ok r) := by
  have hlt := h.lenlt
  have hm := h.mem
  have i2 : v.len * v.elsize ≤ v.cap * v.elsize := Nat.mul_le_mul_right _ h.le
  refine ⟨?_, ?_, ?_, ?_, ?_⟩
  · by_cases h0 : 0 < v.len
    · have e2 : wmul v.len v.elsize = v.len * v.elsize := wmul_eq (by omega)
      have hp : 0 < v.len * v.elsize := Nat.mul_pos h0 h.es
      unfold Vec.dup
      cases h1 : E.allocOk arrStructSize with
      | false => simp [Vec.create, h0, h.es, vtCalloc_fail (by decide) h1, Out.Safe]
      | true =>
        cases h2 : E.allocOk (v.len * v.elsize) with
        | false => simp [Vec.create, h0, h.es, e2, vtCalloc_fail hp h2, vtCalloc_ok (by decide) h1, Out.Safe]
        | true =>
          have hc : Vec.create E v.len v.elsize = .ok ⟨0, v.len, v.elsize, 0, false, List.replicate (v.len * v.elsize) (some 0)⟩ := by
            simp [Vec.create, h0, h.es, e2, vtCalloc_ok hp h2, vtCalloc_ok (by decide) h1]
          rw [hc, bind_ok]
          simp only [e2]
          rw [readN_ok (by omega), bind_ok, writeN_ok (by simp; omega), bind_ok]
          simp [Out.Safe]
    · simp [Vec.dup, Vec.create, h0, dassert_false hD, Out.Safe]
  · intro σ f st hf
    obtain ⟨v', e, -⟩ := C83_vec_apply v h f hf st
    exact ⟨_, e⟩
  · intro hd val hv hvd
    unfold Vec.canFind
    split
    · exact ⟨_, rfl⟩
    · rw [readN_ok (by omega), bind_ok]
      exact canFindLoop_defined h hd (by rw [List.length_take]; simp; omega)
        (fun hn => hvd (List.mem_of_mem_drop (List.mem_of_mem_take hn))) _ _ (by omega)
  · intro hd i
    unfold Vec.getT
    by_cases hi : i < v.len
    · obtain ⟨e, hb⟩ := WF.slot h hi
      obtain ⟨x, hx⟩ := leValue_defined ((v.mem.drop (i * v.elsize)).take v.elsize)
        (fun hn => hd (List.mem_of_mem_drop (List.mem_of_mem_take hn)))
      rw [decide_eq_true hi, dassert_true, bind_ok, bind_ok, e, readN_ok hb, bind_ok, hx, bind_ok]
      simp [Out.Safe]
    · simp [hi, dassert_false hD, Out.Safe]
  · intro hd
    unfold Vec.popGetT
    split
    · next h0 =>
      have e1 : wsub v.len 1 = v.len - 1 := wsub_eq (by omega) (by omega)
      obtain ⟨e, hb⟩ := WF.slot h (i := v.len - 1) (by omega)
      obtain ⟨x, hx⟩ := leValue_defined ((v.mem.drop ((v.len - 1) * v.elsize)).take v.elsize)
        (fun hn => hd (List.mem_of_mem_drop (List.mem_of_mem_take hn)))
      simp only [e1, e]
      rw [readN_ok hb, bind_ok, hx, bind_ok]
      exact ⟨_, rfl⟩
    · exact ⟨_, rfl⟩

/-- **C02** (refutation) The last two steps of every backward traversal leave the buffer, also in debug builds. -/
theorem C02_slide_back_leaves_buffer (v : Arr) (h : v.WF) (hs : v.slider < v.len) (hs2 : v.len ≤ v.slider + 2) :
    Slide.back v = .ub := back_ub h hs hs2

/-- **C02** (refutation) A typed accessor of another width than the elements reads behind the buffer at the last element of
every full vector; the debug build checks the index only. -/
theorem C02_wrong_type_leaves_buffer (E : Env) (v : Arr) (h : v.WF) (hf : v.len = v.cap) (w : Nat) (hw : v.elsize < w) :
    Vec.getT E v w (v.len - 1) = .ub ∧ Vec.popGetT v w = .ub := by
  have hc := h.cap
  obtain ⟨e, hb⟩ := WF.slot h (i := v.len - 1) (by omega)
  have hlt := h.lenlt
  have hm := h.mem
  have e1 : wsub v.len 1 = v.len - 1 := wsub_eq (by omega) (by omega)
  have i0 : (v.len - 1 + 1) * v.elsize = v.cap * v.elsize := mulc (by omega)
  rw [Nat.add_mul, Nat.one_mul] at i0
  have hr : readN v.mem ((v.len - 1) * v.elsize) w = .ub := readN_ub (by omega)
  constructor
  · unfold Vec.getT
    rw [decide_eq_true (show v.len - 1 < v.len by omega), dassert_true, bind_ok, bind_ok, e, hr, bind_ub]
  · unfold Vec.popGetT
    rw [if_pos (show v.len > 0 by omega)]
    simp only [e1, e]
    rw [hr, bind_ub]

example : exV.WF ∧ (Vec.dup exE exV).mapOk Arr.elems = .ok exV.elems ∧ Vec.getT exE exV 4 1 = .ok 2 ∧ Vec.getT exE exV 8 1 = .ub ∧
    Slide.back exV = .ub := by
  refine ⟨by decide +kernel, by decide +kernel, by decide +kernel, by decide +kernel, by decide +kernel⟩

end Vita
