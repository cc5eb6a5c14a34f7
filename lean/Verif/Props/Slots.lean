import Verif.Props.Vec
import Verif.Props.StrEdit
import Verif.Props.Slides
/-!
# Reserving and resizing really provide the slots (C12), and two cases of the string calls (C17, C20)
-/

namespace Vita
open Out Spec

seal wadd wsub wmul

/-- Pushing into free slots, with the elements. -/
theorem pushAll_room {E : Env} {xs : List Mem} {v : Arr} (h : v.WF) (hr : v.len + xs.length ≤ v.cap) (hx : ∀ x ∈ xs, v.elsize ≤ x.length) :
    ∃ v', pushAll E v xs = .ok v' ∧ v'.elems = v.elems ++ xs.map (·.take v.elsize) ∧ v'.cap = v.cap := by
  have hlt := h.lenlt
  have hm := h.mem
  have hl := h.lim
  have i2 : (v.len + xs.length) * v.elsize ≤ v.cap * v.elsize := Nat.mul_le_mul_right _ hr
  obtain ⟨v', e, l, c, s, m⟩ := pushAll_in_slots (E := E) xs v hr (by omega) (by omega) (by omega) hx
  obtain ⟨_, g, _⟩ := pushAll_wf xs v v' h hx e
  exact ⟨v', e, g, c⟩

theorem reserve_mem {E : Env} {v v' : Arr} {n : Nat} (hr : Vec.reserve E v n = .ok v') :
    v'.len = v.len ∧ v'.elsize = v.elsize ∧ v'.cap = wadd v.cap n ∧ v'.mem.length = wmul (wadd v.cap n) v.elsize ∧
      wmul (wadd v.cap n) v.elsize < 2 ^ 56 := by
  unfold Vec.reserve at hr
  simp only [bind_eq_ok] at hr
  obtain ⟨_, -, m, hm, hr⟩ := hr
  unfold vtRealloc at hm
  simp only [bind_eq_ok] at hm
  obtain ⟨_, -, hm⟩ := hm
  split at hm
  · cases hm
  · split at hm
    · next ha =>
      have := E.lim _ ha
      cases hm
      cases hr
      refine ⟨rfl, rfl, rfl, ?_, this⟩
      simp only [List.length_append, List.length_take, List.length_replicate]
      omega
    · cases hm

theorem resize_mem {E : Env} {v v' : Arr} {n : Nat} (hne : n ≠ v.cap) (hr : Vec.resize E v n = .ok v') :
    v'.len = n ∧ v'.elsize = v.elsize ∧ v'.cap = n ∧ v'.mem.length = wmul n v.elsize ∧ wmul n v.elsize < 2 ^ 56 := by
  unfold Vec.resize at hr
  simp only [bind_eq_ok] at hr
  obtain ⟨_, -, hr⟩ := hr
  rw [if_neg hne] at hr
  simp only [bind_eq_ok] at hr
  obtain ⟨m, hm, hr⟩ := hr
  unfold vtRealloc at hm
  simp only [bind_eq_ok] at hm
  obtain ⟨_, -, hm⟩ := hm
  split at hm
  · cases hm
  · split at hm
    · next ha =>
      have := E.lim _ ha
      cases hm
      cases hr
      refine ⟨rfl, rfl, rfl, ?_, this⟩
      simp only [List.length_append, List.length_take, List.length_replicate]
      omega
    · cases hm

/-- **C12** (partial: the number of bytes is representable, see `C12_reserve_overflow`.) If `vt_vec_reserve(v, n)` returns, the elements are as
before, the capacity has grown by `n`, and as many values as there are free slots can be pushed without any reallocation. -/
theorem C12_reserve_usable_partial (E : Env) (v : Arr) (h : v.WF) (n : Nat) (hn : 0 < n) (hsz : (v.cap + n) * v.elsize < 2 ^ 64)
    (v' : Arr) (hr : Vec.reserve E v n = .ok v') :
    v'.elems = v.elems ∧ v'.cap = v.cap + n ∧
    ∀ xs : List Mem, (∀ x ∈ xs, v.elsize ≤ x.length) → v.len + xs.length ≤ v.cap + n →
      ∃ v'', pushAll E v' xs = .ok v'' ∧ v''.elems = v.elems ++ xs.map (·.take v.elsize) ∧ v''.cap = v.cap + n := by
  have hlt := h.lenlt
  have hes := h.es
  have hsp : (v.cap + n) * 1 ≤ (v.cap + n) * v.elsize := Nat.mul_le_mul_left _ hes
  have e1 : wadd v.cap n = v.cap + n := wadd_eq (by omega)
  have e2 : wmul (v.cap + n) v.elsize = (v.cap + n) * v.elsize := wmul_eq hsz
  obtain ⟨_, _, _, _, hlim⟩ := reserve_mem hr
  rw [e1, e2] at hlim
  have hnn : n * v.elsize ≤ (v.cap + n) * v.elsize := Nat.mul_le_mul_right _ (by omega)
  cases ha : E.allocOk ((v.cap + n) * v.elsize) with
  | false => rw [reserve_fail h hn (by omega) ha] at hr; cases hr
  | true =>
    obtain ⟨u, e, hw, hel, hc, hlen, hs, -⟩ := reserve_ok (E := E) h hn (by omega) ha
    rw [hr] at e
    cases e
    refine ⟨hel, hc, fun xs hx hl => ?_⟩
    obtain ⟨v'', g1, g2, g3⟩ := pushAll_room (E := E) (xs := xs) hw (by omega) (by rw [hs]; exact hx)
    exact ⟨v'', g1, by rw [g2, hel, hs], by omega⟩

/-- **C12** (partial: the number of bytes is representable, see `C12_resize_overflow`.) If `vt_vec_resize(v, n)` returns, the vector has `n`
elements and capacity `n`, each of them can be read and written, and those that were there before are the same. -/
theorem C12_resize_usable_partial (E : Env) (v : Arr) (h : v.WF) (n : Nat) (hn : 0 < n) (hsz : n * v.elsize < 2 ^ 64)
    (v' : Arr) (hr : Vec.resize E v n = .ok v') :
    Vec.length v' = n ∧ v'.cap = n ∧ (∀ i, i < n → i < v.len → v'.elems[i]? = v.elems[i]?) ∧
    ∀ i, i < n → (∃ x, Vec.get E v' i = .ok x ∧ v'.elems[i]? = some x) ∧
      ∀ x : Mem, v.elsize ≤ x.length → ∃ v'', Vec.set E v' x i = .ok v'' ∧ v''.elems = v'.elems.set i (x.take v.elsize) := by
  have hlt := h.lenlt
  have hes := h.es
  have hb : n * v.elsize < 2 ^ 63 ∧ (n = v.cap ∨ E.allocOk (n * v.elsize) = true) := by
    by_cases hne : n = v.cap
    · subst hne
      have := h.lim
      exact ⟨by omega, Or.inl rfl⟩
    · have e2 : wmul n v.elsize = n * v.elsize := wmul_eq hsz
      obtain ⟨_, _, _, _, hlim⟩ := resize_mem hne hr
      rw [e2] at hlim
      refine ⟨by omega, Or.inr ?_⟩
      cases ha : E.allocOk (n * v.elsize) with
      | true => rfl
      | false =>
        have hp : 0 < n * v.elsize := Nat.mul_pos hn hes
        simp [Vec.resize, hn, hne, e2, vtRealloc_fail hp ha] at hr
  obtain ⟨u, extra, e, habs, hex, hw, hsame⟩ := resize_spec (E := E) h hn hb.1 hb.2
  rw [hr] at e
  cases e
  have hel : v'.elems = v.elems.take n ++ extra := congrArg Spec.SeqState.elems habs
  have hcap : v'.cap = n := congrArg Spec.SeqState.cap habs
  have hvl : v.elems.length = v.len := by simp [Arr.elems]
  have hl' : v'.elems.length = v'.len := by simp [Arr.elems]
  have hlen : v'.len = n := by
    rw [← hl', hel, List.length_append, List.length_take, hex]; omega
  refine ⟨hlen, hcap, fun i hi hi2 => ?_, fun i hi => ⟨?_, fun x hx => ?_⟩⟩
  · rw [hel, List.getElem?_append_left (by rw [List.length_take]; omega), List.getElem?_take_of_lt hi]
  · obtain ⟨e, hb⟩ := WF.slot hw (i := i) (by omega)
    refine ⟨_, ?_, by rw [Arr.elems, chunks_getElem?, if_pos (by omega)]⟩
    simp [Vec.get, Vec.arrGet, show i < v'.len by omega, e, readN_ok hb]
  · obtain ⟨v'', g1, g2, -⟩ := set_spec (E := E) hw (val := x) (by rw [hsame.1]; exact hx) (i := i) (by omega)
    refine ⟨v'', g1, ?_⟩
    have := congrArg Spec.SeqState.elems g2
    rw [hsame.1] at this
    exact this

/-- A slot index behind the bytes there are. -/
theorem slot_behind {w es n : Nat} (hes : 0 < es) (hsz : w < n * es) : w / es < n ∧ w / es * es ≤ w ∧ w < w / es * es + es := by
  refine ⟨by rw [Nat.div_lt_iff_lt_mul hes]; exact hsz, Nat.div_mul_le_self _ _, ?_⟩
  have := Nat.div_add_mod w es
  have := Nat.mod_lt w hes
  rw [Nat.mul_comm]
  omega

/-- **C12** (refutation) Whenever the byte count is not representable, a `vt_vec_resize` that returns reports `n` elements, one of which is
outside the buffer: reading it is undefined, in debug builds as well. -/
theorem C12_resize_overflow (E : Env) (v : Arr) (h : v.WF) (n : Nat) (hn : n < 2 ^ 64) (hsz : 2 ^ 64 ≤ n * v.elsize)
    (v' : Arr) (hr : Vec.resize E v n = .ok v') :
    Vec.length v' = n ∧ ∃ i, i < n ∧ Vec.get E v' i = .ub := by
  have hlim := h.lim
  have hne : n ≠ v.cap := by rintro rfl; omega
  obtain ⟨hl, hs, hc, hm, hb⟩ := resize_mem hne hr
  obtain ⟨a, b, c⟩ := slot_behind (w := wmul n v.elsize) h.es (n := n) (by omega)
  refine ⟨hl, _, a, ?_⟩
  have e : wmul (wmul n v.elsize / v.elsize) v.elsize = wmul n v.elsize / v.elsize * v.elsize := wmul_eq (by omega)
  simp [Vec.get, Vec.arrGet, hl, hs, a, e, readN_ub (show v'.mem.length < wmul n v.elsize / v.elsize * v.elsize + v.elsize by omega)]

/-- **C12** (refutation) Whenever the byte count is not representable, a `vt_vec_reserve` that returns reports a capacity grown by `n`, but
either an element that was there is now outside the buffer, or after some pushes fewer than the free slots the next one writes outside. -/
theorem C12_reserve_overflow (E : Env) (v : Arr) (h : v.WF) (n : Nat) (hn : v.cap + n < 2 ^ 64) (hsz : 2 ^ 64 ≤ (v.cap + n) * v.elsize)
    (v' : Arr) (hr : Vec.reserve E v n = .ok v') :
    v'.cap = v.cap + n ∧
    ((∃ i, i < v.len ∧ Vec.get E v' i = .ub) ∨
      ∃ k, v.len + k < v.cap + n ∧ ∀ xs : List Mem, xs.length = k → (∀ x ∈ xs, v.elsize ≤ x.length) →
        ∃ v'', pushAll E v' xs = .ok v'' ∧ ∀ x : Mem, v.elsize ≤ x.length → Vec.pushBack E v'' x = .ub) := by
  have e1 : wadd v.cap n = v.cap + n := wadd_eq hn
  obtain ⟨hl, hs, hc, hm, hb⟩ := reserve_mem hr
  rw [e1] at hc hm hb
  generalize hw : wmul (v.cap + n) v.elsize = w at hm hb
  obtain ⟨a, b, c⟩ := slot_behind (w := w) h.es (n := v.cap + n) (by omega)
  refine ⟨hc, ?_⟩
  by_cases hi : w / v.elsize < v.len
  · refine Or.inl ⟨_, hi, ?_⟩
    have e : wmul (w / v.elsize) v.elsize = w / v.elsize * v.elsize := wmul_eq (by omega)
    simp [Vec.get, Vec.arrGet, hl, hs, hi, e, readN_ub (show v'.mem.length < w / v.elsize * v.elsize + v.elsize by omega)]
  · refine Or.inr ⟨w / v.elsize - v.len, by omega, fun xs hx hxl => ?_⟩
    have hk : v'.len + xs.length = w / v.elsize := by omega
    obtain ⟨v'', g1, l1, c1, s1, m1⟩ := pushAll_in_slots (E := E) xs v' (by omega) (by omega) (by rw [hk, hs, hm]; exact b) (by omega)
      (by rw [hs]; exact hxl)
    refine ⟨v'', g1, fun x hx => push_outside (by omega) (by omega) ?_ ?_ (by omega) (by omega)⟩
    · rw [l1, hk, s1, hs, m1, hm]; exact b
    · rw [l1, hk, s1, hs, m1, hm, Nat.add_mul, Nat.one_mul]; exact c

/-- **C12** (refutation) If even the new capacity is not representable, it has become smaller. -/
theorem C12_reserve_wraps (E : Env) (v : Arr) (h : v.WF) (n : Nat) (hn : n < 2 ^ 64) (hsz : 2 ^ 64 ≤ v.cap + n)
    (v' : Arr) (hr : Vec.reserve E v n = .ok v') : v'.cap = v.cap + n - 2 ^ 64 ∧ v'.cap < v.cap := by
  have hlt := h.lenlt
  obtain ⟨-, -, hc, -⟩ := reserve_mem hr
  have e : wadd v.cap n = v.cap + n - 2 ^ 64 := by
    unfold wadd
    rw [Nat.mod_eq_sub_mod hsz, Nat.mod_eq_of_lt (by omega)]
  omega

example : exV.WF ∧ (Vec.reserve exE exV 2).mapOk (fun v => (v.elems, v.cap)) = .ok (exV.elems, exV.cap + 2) ∧
    (Vec.resize exE exV 3).mapOk (fun v => (v.len, v.cap)) = .ok (3, 3) := by
  refine ⟨by decide +kernel, by decide +kernel, by decide +kernel⟩

/-- Example for the refutations: with elements of 4 bytes, resizing to `2^62 + 1` elements leaves 4 bytes; reading the second element is undefined. -/
example :
    ∃ v, 2 ^ 64 ≤ (2 ^ 62 + 1) * 4 ∧ Vec.resize exE exV (2 ^ 62 + 1) = .ok v ∧ v.len = 2 ^ 62 + 1 ∧ v.mem.length = 4 ∧ Vec.get exE v 1 = .ub := by
  refine ⟨⟨2 ^ 62 + 1, 2 ^ 62 + 1, 4, exV.slider, exV.isView, exV.mem.take 4⟩, by omega, ?_, rfl, rfl, ?_⟩ <;> decide +kernel

/-! ### Strings -/

/-- **C17** (partial: release builds only, see `C17_debug_rejects_empty`.) Overwriting from a position inside the text with the empty text
leaves the text in front of the position (what is behind it is removed, as for every text, C16). -/
theorem C17_set_at_empty_partial {E : Env} (hR : E.debug = false) {z : Mem} (hz : CStr z []) {s : Arr} {t : Text} (hs : IsStr s t) {i : Nat}
    (hi : i < t.length) : ∃ v, Str.setAt E s z i = .ok v ∧ IsStr v (t.take i) ∧ v.cap = s.cap := by
  have hle := hs.le
  have hlim := hs.lim
  have e : wsub s.len i = t.length - i := by rw [hs.len]; exact wsub_eq (by omega) (by omega)
  obtain ⟨v, e1, s1, c1, -⟩ := remove_ok (E := E) hs (i := i) (n := t.length - i) (by omega) hi
  have hl1 := s1.le
  obtain ⟨v', e2, s2, c2, -⟩ := appendN_ok (E := E) (ys := []) s1 (by simp) hz.begins (by simp) (Or.inr hR) (Or.inl (by simpa using hl1))
  have ht : t.take i ++ t.drop (i + (t.length - i)) = t.take i := by
    rw [List.drop_eq_nil_of_le (by omega), List.append_nil]
  rw [ht] at s2 c2 s1
  refine ⟨v', ?_, by simpa using s2, ?_⟩
  · simp only [Str.setAt, dassert_release hR, bind_ok, strlen_ok hz.text, e, enforce]
    simp only [List.length_nil] at e2
    simp [e1, e2]
  · rw [c2, c1]
    simp only [List.length_nil, List.length_take]
    omega

example : IsStr (strObj [97, 98, 99] 0) [97, 98, 99] ∧
    (Str.setAt { exE with debug := false } (strObj [97, 98, 99] 0) (zstr []) 1).mapOk Str.z = .ok (.ok [97]) :=
  ⟨⟨rfl, rfl, by decide +kernel, rfl, by decide +kernel, by decide +kernel⟩, by decide +kernel⟩

/-- **C20** (refutation, release builds) If the last occurrence is at the front, nothing is removed although success is reported. -/
theorem C20_remove_last_at_front {E : Env} (hR : E.debug = false) {v : Arr} {t zs : Text} (h : IsStr v t) {z : Mem} (hz : CStr z zs)
    (h0 : zs ≠ []) {k : Nat} (hk : t.length < k) (hl : (positions t zs).getLast? = some 0) :
    ∃ v', Str.removeLast E k v z = .ok (v', true) ∧ IsStr v' t := by
  have hp : 0 < zs.length := List.length_pos_iff.2 h0
  have ho := (positions_last h0 _ t 0 (Nat.le_refl _) hl).1
  have hlen := h.le
  have hlim := h.lim
  have hsz := h.size
  have hle := ho.le
  have hstr := strstrAt_ok h.text hz.text (i := 0) (by omega)
  have w : wmul v.len v.elsize = t.length := by rw [h.es, h.len]; exact wmul_one (by omega)
  have w2 : wsub t.length 0 = t.length := wsub_eq (by omega) (by omega)
  rcases exists_first_or_none t zs with ⟨i, hi, e⟩ | ⟨hn, e⟩
  · have hrl : Str.removeLast E k v z = (do
        let s ← Str.remove E v t.length zs.length
        .ok (s, true)) := by
      simp only [Str.removeLast, strlen_ok hz.text, bind_ok, hstr, List.drop_zero, e, Option.map_some, Nat.zero_add,
        lastInstance_first h.text hz.text h0 hi hk hl, w, w2]
    have e3 : wsub t.length t.length = 0 := (wsub_eq (Nat.le_refl _) (by omega)).trans (Nat.sub_self _)
    have e4 : wadd t.length 0 = t.length := wadd_eq (by omega)
    have e5 : wmul 0 v.elsize = 0 := by rw [wmul_eq (by omega), Nat.zero_mul]
    have hg : v.mem[t.length]? = some (some 0) := by
      obtain ⟨⟨tail, ht⟩, -⟩ := scanZ_eq_ok.1 h.text
      rw [ht]
      simp
    have hset : v.mem.set t.length (some 0) = v.mem := by
      apply List.ext_getElem?
      intro j
      rw [List.getElem?_set]
      split
      · next hj => subst hj; rw [if_pos (by omega), hg]
      · rfl
    refine ⟨v, ?_, h⟩
    rw [hrl]
    simp only [Str.remove, dassert_release hR, bind_ok, h.len, e3, hp, gt_iff_lt, if_true, e4, e5, vtMemmove, w2]
    rw [putc_ok (by omega), bind_ok, hset, bind_ok]
    have hv : ({ v with mem := v.mem, len := t.length } : Arr) = v := by rw [← h.len]
    rw [hv]
  · exact absurd ⟨0, ho⟩ hn

example : (positions [97, 98, 99] [97]).getLast? = some 0 ∧
    (Str.removeLast { exE with debug := false } 9 (strObj [97, 98, 99] 0) (zstr [97])).mapOk (fun r => (Str.z r.1, r.2))
      = .ok (.ok [97, 98, 99], true) := by
  exact ⟨by decide +kernel, by decide +kernel⟩

end Vita
