import Verif.Model.Str
import Verif.Lemmas.Text
/-! Functional equations of the string model on well-formed strings. -/

namespace Vita
open Out Spec

seal wadd wsub wmul

/-- `v` is a well-formed string object holding the text `t`: it owns a block of `capacity + 1` bytes
that reads as `t` followed by a NUL, and its length field is the length of `t`. -/
structure IsStr (v : Arr) (t : Text) : Prop where
  es : v.elsize = 1
  view : v.isView = false
  text : scanZ v.mem = .ok t
  len : v.len = t.length
  size : v.mem.length = v.cap + 1
  lim : v.cap + 1 < 2 ^ 56

/-- The memory `z` begins with the characters `ys` (a C string argument of which `ys` is used). -/
def Begins (z : Mem) (ys : Text) : Prop := ∃ tail, z = ys.map some ++ tail

theorem IsStr.le {v : Arr} {t : Text} (h : IsStr v t) : t.length ≤ v.cap := by
  have := scanZ_length h.text
  have := h.size
  omega

theorem IsStr.nz {v : Arr} {t : Text} (h : IsStr v t) : 0 ∉ t := (scanZ_eq_ok.1 h.text).2

theorem IsStr.split {v : Arr} {t : Text} (h : IsStr v t) :
    ∃ rest, v.mem = t.map some ++ some 0 :: rest ∧ rest.length = v.cap - t.length := by
  obtain ⟨⟨rest, hm⟩, -⟩ := scanZ_eq_ok.1 h.text
  refine ⟨rest, hm, ?_⟩
  have := h.size
  rw [hm] at this
  simp at this
  omega

theorem IsStr.mk' {v : Arr} {t : Text} {rest : Mem} (hes : v.elsize = 1) (hv : v.isView = false)
    (hm : v.mem = t.map some ++ some 0 :: rest) (h0 : 0 ∉ t) (hl : v.len = t.length)
    (hr : t.length + rest.length = v.cap) (hlim : v.cap + 1 < 2 ^ 56) : IsStr v t :=
  ⟨hes, hv, by rw [hm]; exact scanZ_append h0, hl, by rw [hm]; simp; omega, hlim⟩

theorem wmul_one {a : Nat} (h : a < 2 ^ 64) : wmul a 1 = a := by rw [wmul_eq (by omega), Nat.mul_one]

theorem putc_mid (a c : Mem) (x : Byte) (y : UInt8) {i : Nat} (h : i = a.length) :
    putc (a ++ x :: c) i y = .ok (a ++ some y :: c) := by
  have := writeN_mid a [x] c [some y] h rfl
  simpa [putc] using this

theorem putc_ok {m : Mem} {i : Nat} (h : i < m.length) (y : UInt8) :
    putc m i y = .ok (m.set i (some y)) := by
  rw [putc, writeN_ok (by simp; omega)]
  congr 1
  rw [List.set_eq_take_append_cons_drop, if_pos h]; simp

theorem putc_ub {m : Mem} {i : Nat} (h : m.length ≤ i) (y : UInt8) : putc m i y = .ub :=
  writeN_ub (by simp; omega)

theorem vtMemcpyIn_mid (a b c z : Mem) {off n : Nat} {bs tail : Mem} (h1 : off = a.length)
    (hz : z = bs ++ tail) (hn : n = bs.length) (h2 : bs.length = b.length) :
    vtMemcpyIn (a ++ b ++ c) off z n = .ok (a ++ bs ++ c) := by
  unfold vtMemcpyIn
  by_cases h0 : n = 0
  · have e1 : bs = [] := List.eq_nil_of_length_eq_zero (by omega)
    have e2 : b = [] := List.eq_nil_of_length_eq_zero (by omega)
    rw [if_pos h0, e1, e2]
  · rw [if_neg h0, memcpyIn]
    have : readN z 0 n = .ok bs := by
      have := readN_mid [] bs tail (off := 0) (n := n) rfl hn
      rw [hz]; simpa using this
    rw [this, bind_ok, writeN_mid a b c bs h1 h2]

/-- `vtMemmove` of the part `b` to offset `off`, as read and write. -/
theorem vtMemmove_eq {m b : Mem} {dst src n : Nat} (h : readN m src n = .ok b) (hw : n = 0 → writeN m dst b = .ok m) :
    vtMemmove m dst src n = writeN m dst b := by
  unfold vtMemmove
  by_cases h0 : n = 0
  · rw [if_pos h0, hw h0]
  · rw [if_neg h0, memmove, h, bind_ok]

theorem hasSpace_str {v : Arr} {t : Text} (h : IsStr v t) : hasSpace v = v.cap - t.length := by
  have := h.le; have := h.lim
  rw [hasSpace, h.len]
  exact wsub_eq h.le (by omega)

/-- Result of a successful `vt_str_reserve`. -/
theorem str_reserve_ok {E : Env} {v : Arr} {t : Text} (h : IsStr v t) {n : Nat} (hn : 0 < n) (hn' : n < 2 ^ 63)
    (ha : E.allocOk (v.cap + n + 1) = true) :
    ∃ v', Str.reserve E v n = .ok v' ∧ IsStr v' t ∧ v'.cap = v.cap + n ∧ v'.slider = v.slider := by
  have hb := E.lim _ ha
  obtain ⟨rest, hm, hr⟩ := h.split
  have hle := h.le
  have e1 : wadd v.cap n = v.cap + n := wadd_eq (by omega)
  have e2 : wadd (v.cap + n) 1 = v.cap + n + 1 := wadd_eq (by omega)
  have e3 : wmul (v.cap + n + 1) 1 = v.cap + n + 1 := wmul_one (by omega)
  have hge : v.mem.length ≤ v.cap + n + 1 := by rw [h.size]; omega
  have hR : List.replicate (v.cap + n + 1 - v.mem.length) (none : Byte) =
      List.replicate (n - 1) none ++ [none] := by
    rw [h.size, ← List.replicate_succ']; congr 1; omega
  have hP : putc (v.mem.take (v.cap + n + 1) ++ List.replicate (v.cap + n + 1 - v.mem.length) none)
      (v.cap + n) 0 = .ok (v.mem ++ List.replicate (n - 1) none ++ [some 0]) := by
    rw [List.take_of_length_le hge, hR, ← List.append_assoc]
    exact putc_mid _ [] _ _ (by simp [h.size]; omega)
  refine ⟨{ v with mem := v.mem ++ List.replicate (n - 1) none ++ [some 0], cap := v.cap + n }, ?_, ?_, rfl, rfl⟩
  · simp [Str.reserve, hn, e1, e2, e3, h.es, h.view, vtRealloc_ok (by omega : 0 < v.cap + n + 1) ha, hP]
  · exact IsStr.mk' (rest := rest ++ List.replicate (n - 1) none ++ [some 0]) h.es h.view
      (by simp [hm]) h.nz h.len (by simp [hr]; omega) (by simp; omega)

theorem str_reserve_fail {E : Env} {v : Arr} {t : Text} (h : IsStr v t) {n : Nat} (hn : 0 < n) (hn' : n < 2 ^ 63)
    (ha : E.allocOk (v.cap + n + 1) = false) : Str.reserve E v n = .exit .alloc := by
  have := h.lim
  have e1 : wadd v.cap n = v.cap + n := wadd_eq (by omega)
  have e2 : wadd (v.cap + n) 1 = v.cap + n + 1 := wadd_eq (by omega)
  have e3 : wmul (v.cap + n + 1) 1 = v.cap + n + 1 := wmul_one (by omega)
  simp [Str.reserve, hn, e1, e2, e3, h.es, h.view, vtRealloc_fail (by omega : 0 < v.cap + n + 1) ha]

/-- Making room for `n` more characters. -/
theorem str_grow_ok {E : Env} {v : Arr} {t : Text} (h : IsStr v t) {n : Nat} (hn : n < 2 ^ 63)
    (ha : t.length + n ≤ v.cap ∨ E.allocOk (t.length + n + 1) = true) :
    ∃ v', Str.grow E v n = .ok v' ∧ IsStr v' t ∧ v'.cap = max v.cap (t.length + n) ∧ v'.slider = v.slider := by
  have hle := h.le
  unfold Str.grow
  rw [hasSpace_str h]
  by_cases hc : v.cap - t.length < n
  · rw [if_pos hc]
    have e1 : wsub n (v.cap - t.length) = n - (v.cap - t.length) := wsub_eq (by omega) (by omega)
    have ha : E.allocOk (t.length + n + 1) = true := by
      rcases ha with ha | ha
      · omega
      · exact ha
    obtain ⟨v', h1, h2, h3, h4⟩ := str_reserve_ok (E := E) h (n := n - (v.cap - t.length)) (by omega) (by omega)
      (by rw [show v.cap + (n - (v.cap - t.length)) + 1 = t.length + n + 1 by omega]; exact ha)
    exact ⟨v', by rw [e1, h1], h2, by omega, h4⟩
  · rw [if_neg hc]
    exact ⟨v, rfl, h, by omega, rfl⟩

theorem str_grow_fail {E : Env} {v : Arr} {t : Text} (h : IsStr v t) {n : Nat} (hn : n < 2 ^ 63)
    (hc : v.cap < t.length + n) (ha : E.allocOk (t.length + n + 1) = false) :
    Str.grow E v n = .exit .alloc := by
  have hle := h.le
  unfold Str.grow
  rw [hasSpace_str h, if_pos (by omega)]
  have e1 : wsub n (v.cap - t.length) = n - (v.cap - t.length) := wsub_eq (by omega) (by omega)
  rw [e1]
  exact str_reserve_fail h (by omega) (by omega)
    (by rw [show v.cap + (n - (v.cap - t.length)) + 1 = t.length + n + 1 by omega]; exact ha)

/-- Copying `ys` and a terminator behind the text. -/
theorem str_put_end {v : Arr} {t ys : Text} (h : IsStr v t) (hy : 0 ∉ ys)
    (hc : t.length + ys.length ≤ v.cap) {z : Mem} (hz : Begins z ys) :
    ∃ m1 m2, vtMemcpyIn v.mem t.length z ys.length = .ok m1 ∧
      putc m1 (t.length + ys.length) 0 = .ok m2 ∧
      IsStr { v with mem := m2, len := t.length + ys.length } (t ++ ys) := by
  obtain ⟨rest, hm, hr⟩ := h.split
  obtain ⟨tail, hz⟩ := hz
  have hlim := h.lim
  -- the bytes behind the text
  obtain ⟨old, x, rest', e, hl⟩ : ∃ (old : Mem) (x : Byte) (rest' : Mem), some 0 :: rest = old ++ x :: rest' ∧
      old.length = ys.length := by
    have hlen : ys.length < (some (0:UInt8) :: rest).length := by simp [hr]; omega
    refine ⟨(some 0 :: rest).take ys.length, (some (0:UInt8) :: rest)[ys.length], (some 0 :: rest).drop (ys.length + 1), ?_, ?_⟩
    · rw [List.getElem_cons_drop, List.take_append_drop]
    · rw [List.length_take]; omega
  have hr' : ys.length + rest'.length = rest.length := by
    have := congrArg List.length e
    simp [hl] at this
    omega
  refine ⟨t.map some ++ ys.map some ++ x :: rest', t.map some ++ ys.map some ++ some 0 :: rest', ?_, ?_, ?_⟩
  · rw [hm, e, ← List.append_assoc]
    exact vtMemcpyIn_mid _ _ _ _ (by simp) hz (by simp) (by simp [hl])
  · exact putc_mid _ _ _ _ (by simp)
  · refine IsStr.mk' (rest := rest') h.es h.view (by simp) ?_ (by simp) ?_ h.lim
    · simp only [List.mem_append, not_or]; exact ⟨h.nz, hy⟩
    · simp; omega

theorem appendN_ok {E : Env} {v : Arr} {t ys : Text} (h : IsStr v t) (hy : 0 ∉ ys) {z : Mem} (hz : Begins z ys)
    (hn : ys.length < 2 ^ 63) (h1 : 0 < ys.length ∨ E.debug = false)
    (ha : t.length + ys.length ≤ v.cap ∨ E.allocOk (t.length + ys.length + 1) = true) :
    ∃ v', Str.appendN E v z ys.length = .ok v' ∧ IsStr v' (t ++ ys) ∧
      v'.cap = max v.cap (t.length + ys.length) ∧ v'.slider = v.slider := by
  obtain ⟨g, hg, gs, gc, gsl⟩ := str_grow_ok (E := E) h hn ha
  have hd : dassert E (decide (ys.length > 0)) = .ok () := by
    rcases h1 with h1 | h1
    · simp [h1]
    · exact dassert_release h1 _
  obtain ⟨m1, m2, e1, e2, e3⟩ := str_put_end gs hy (by omega) hz
  have := gs.lim
  have := gs.le
  have w1 : wmul g.len g.elsize = t.length := by rw [gs.es, gs.len]; exact wmul_one (by omega)
  have w2 : wmul ys.length g.elsize = ys.length := by rw [gs.es]; exact wmul_one (by omega)
  have w3 : wadd g.len ys.length = t.length + ys.length := by rw [gs.len]; exact wadd_eq (by omega)
  refine ⟨_, ?_, e3, gc, gsl⟩
  simp only [Str.appendN, hd, bind_ok, hg, w1, w2, w3, e1, e2]

theorem appendN_fail {E : Env} {v : Arr} {t : Text} (h : IsStr v t) {z : Mem} {n : Nat}
    (hn : n < 2 ^ 63) (h1 : 0 < n) (hc : v.cap < t.length + n) (ha : E.allocOk (t.length + n + 1) = false) :
    Str.appendN E v z n = .exit .alloc := by
  simp [Str.appendN, h1, str_grow_fail h hn hc ha]

theorem begins_of_scanZ {z : Mem} {zs : Text} (h : scanZ z = .ok zs) : Begins z zs := by
  obtain ⟨⟨rest, hr⟩, -⟩ := scanZ_eq_ok.1 h
  exact ⟨_, hr⟩

theorem Begins.take {z : Mem} {zs : Text} (h : Begins z zs) (n : Nat) : Begins z (zs.take n) := by
  obtain ⟨tail, rfl⟩ := h
  refine ⟨(zs.drop n).map some ++ tail, ?_⟩
  rw [← List.append_assoc, ← List.map_append, List.take_append_drop]

/-- Opening a gap at `at_` and filling it with `ys`. -/
theorem str_put_gap {v : Arr} {t ys : Text} (h : IsStr v t) (hy : 0 ∉ ys)
    (hc : t.length + ys.length ≤ v.cap) {z : Mem} (hz : Begins z ys) {i : Nat} (hi : i ≤ t.length) :
    ∃ m1 m2 m3, vtMemmove v.mem (i + ys.length) i (t.length - i) = .ok m1 ∧
      vtMemcpyIn m1 i z ys.length = .ok m2 ∧
      putc m2 (t.length + ys.length) 0 = .ok m3 ∧
      IsStr { v with mem := m3, len := t.length + ys.length } (t.take i ++ ys ++ t.drop i) := by
  obtain ⟨rest, hm, hr⟩ := h.split
  obtain ⟨tail, hz⟩ := hz
  have hlim := h.lim
  obtain ⟨T, hT⟩ : ∃ T, T = (t.take i).map (some : UInt8 → Byte) := ⟨_, rfl⟩
  obtain ⟨D, hD⟩ : ∃ D, D = (t.drop i).map (some : UInt8 → Byte) := ⟨_, rfl⟩
  have hTl : T.length = i := by simp [hT, hi]
  have hDl : D.length = t.length - i := by simp [hD]
  have hmem : v.mem = T ++ D ++ some 0 :: rest := by
    rw [hm, hT, hD, ← List.map_append, List.take_append_drop]
  have hml : v.mem.length = v.cap + 1 := h.size
  -- write of D at i + k
  have hrd : readN v.mem i (t.length - i) = .ok D := by
    rw [hmem]; exact readN_mid _ _ _ hTl.symm hDl.symm
  obtain ⟨G, X, R, e, hG, hX, hR⟩ : ∃ (G X R : Mem), D ++ some 0 :: rest = G ++ X ++ R ∧ G.length = ys.length ∧
      X.length = D.length ∧ ys.length + D.length + R.length = D.length + 1 + rest.length := by
    have hlen : (D ++ some 0 :: rest).length = D.length + 1 + rest.length := by simp; omega
    refine ⟨(D ++ some 0 :: rest).take ys.length, ((D ++ some 0 :: rest).drop ys.length).take D.length,
      (D ++ some 0 :: rest).drop (ys.length + D.length), ?_, ?_, ?_, ?_⟩
    · rw [← List.drop_drop, List.append_assoc, List.take_append_drop, List.take_append_drop]
    · rw [List.length_take, hlen]; omega
    · rw [List.length_take, List.length_drop, hlen]; omega
    · rw [List.length_drop, hlen]; omega
  have hwr : writeN v.mem (i + ys.length) D = .ok (T ++ G ++ D ++ R) := by
    have := writeN_mid (T ++ G) X R D (off := i + ys.length) (by simp [hTl, hG]) hX.symm
    rw [hmem, List.append_assoc, e]
    simpa [List.append_assoc] using this
  have hmv : vtMemmove v.mem (i + ys.length) i (t.length - i) = .ok (T ++ G ++ D ++ R) := by
    rw [vtMemmove_eq hrd, hwr]
    intro h0
    have hD0 : D = [] := List.eq_nil_of_length_eq_zero (by omega)
    rw [hD0, writeN_ok (by simp; omega)]
    simp
  obtain ⟨x, R', hRR⟩ : ∃ x R', R = x :: R' := by
    cases R with
    | nil => simp at hR; omega
    | cons x R' => exact ⟨x, R', rfl⟩
  refine ⟨_, T ++ ys.map some ++ (D ++ R), T ++ ys.map some ++ D ++ some 0 :: R', hmv, ?_, ?_, ?_⟩
  · rw [List.append_assoc (T ++ G)]
    exact vtMemcpyIn_mid _ _ _ _ hTl.symm hz (by simp) (by simp [hG])
  · rw [hRR, ← List.append_assoc]
    exact putc_mid _ _ _ _ (by simp [hTl, hDl]; omega)
  · refine IsStr.mk' (rest := R') h.es h.view (by simp [hT, hD]) ?_ (by simp; omega) ?_ h.lim
    · simp only [List.mem_append, not_or]
      exact ⟨⟨fun h' => h.nz (List.mem_of_mem_take h'), hy⟩, fun h' => h.nz (List.mem_of_mem_drop h')⟩
    · simp [hRR] at hR ⊢; omega

theorem insertN_ok {E : Env} {v : Arr} {t ys : Text} (h : IsStr v t) (hy : 0 ∉ ys) {z : Mem} (hz : Begins z ys)
    (hn : ys.length < 2 ^ 63) (h1 : 0 < ys.length ∨ E.debug = false) {i : Nat} (hi : i ≤ t.length)
    (ha : t.length + ys.length ≤ v.cap ∨ E.allocOk (t.length + ys.length + 1) = true) :
    ∃ v', Str.insertN E v z i ys.length = .ok v' ∧ IsStr v' (t.take i ++ ys ++ t.drop i) ∧
      v'.cap = max v.cap (t.length + ys.length) ∧ v'.slider = v.slider := by
  obtain ⟨g, hg, gs, gc, gsl⟩ := str_grow_ok (E := E) h hn ha
  have hd : dassert E (decide (ys.length > 0)) = .ok () := by
    rcases h1 with h1 | h1
    · simp [h1]
    · exact dassert_release h1 _
  obtain ⟨m1, m2, m3, e1, e2, e3, e4⟩ := str_put_gap gs hy (by omega) hz hi
  have := gs.lim
  have := gs.le
  have w0 : wadd i ys.length = i + ys.length := wadd_eq (by omega)
  have w1 : wmul (i + ys.length) g.elsize = i + ys.length := by rw [gs.es]; exact wmul_one (by omega)
  have w2 : wmul i g.elsize = i := by rw [gs.es]; exact wmul_one (by omega)
  have w3 : wsub g.len i = t.length - i := by rw [gs.len]; exact wsub_eq hi (by omega)
  have w4 : wmul (t.length - i) g.elsize = t.length - i := by rw [gs.es]; exact wmul_one (by omega)
  have w5 : wmul ys.length g.elsize = ys.length := by rw [gs.es]; exact wmul_one (by omega)
  have w6 : wadd g.len ys.length = t.length + ys.length := by rw [gs.len]; exact wadd_eq (by omega)
  refine ⟨_, ?_, e4, gc, gsl⟩
  simp only [Str.insertN, hd, bind_ok, hg, w0, w1, w2, w3, w4, w5, w6, e1, e2, e3]

theorem insertN_fail {E : Env} {v : Arr} {t : Text} (h : IsStr v t) {z : Mem} {i n : Nat}
    (hn : n < 2 ^ 63) (h1 : 0 < n) (hc : v.cap < t.length + n) (ha : E.allocOk (t.length + n + 1) = false) :
    Str.insertN E v z i n = .exit .alloc := by
  simp [Str.insertN, h1, str_grow_fail h hn hc ha]

theorem insert_ok {E : Env} {v : Arr} {t ys : Text} (h : IsStr v t) {z : Mem} (hz : scanZ z = .ok ys)
    (hn : ys.length < 2 ^ 63) {i : Nat} (hi : i ≤ t.length) (h1 : i < t.length ∨ E.debug = false)
    (ha : t.length + ys.length ≤ v.cap ∨ E.allocOk (t.length + ys.length + 1) = true) :
    ∃ v', Str.insert E v z i = .ok v' ∧ IsStr v' (t.take i ++ ys ++ t.drop i) ∧
      v'.cap = max v.cap (t.length + ys.length) ∧ v'.slider = v.slider := by
  obtain ⟨g, hg, gs, gc, gsl⟩ := str_grow_ok (E := E) h hn ha
  have hd : dassert E (decide (i < v.len)) = .ok () := by
    rcases h1 with h1 | h1
    · simp [h.len, h1]
    · exact dassert_release h1 _
  obtain ⟨m1, m2, m3, e1, e2, e3, e4⟩ := str_put_gap gs (scanZ_eq_ok.1 hz).2 (by omega) (begins_of_scanZ hz) hi
  have := gs.lim
  have := gs.le
  have w0 : wadd i ys.length = i + ys.length := wadd_eq (by omega)
  have w1 : wmul (i + ys.length) g.elsize = i + ys.length := by rw [gs.es]; exact wmul_one (by omega)
  have w2 : wmul i g.elsize = i := by rw [gs.es]; exact wmul_one (by omega)
  have w3 : wsub g.len i = t.length - i := by rw [gs.len]; exact wsub_eq hi (by omega)
  have w4 : wmul (t.length - i) g.elsize = t.length - i := by rw [gs.es]; exact wmul_one (by omega)
  have w5 : wmul ys.length g.elsize = ys.length := by rw [gs.es]; exact wmul_one (by omega)
  have w6 : wadd g.len ys.length = t.length + ys.length := by rw [gs.len]; exact wadd_eq (by omega)
  refine ⟨_, ?_, e4, gc, gsl⟩
  simp only [Str.insert, hd, strlen_ok hz, bind_ok, hg, w0, w1, w2, w3, w4, w5, w6, e1, e2, e3]

theorem insert_fail {E : Env} {v : Arr} {t ys : Text} (h : IsStr v t) {z : Mem} (hz : scanZ z = .ok ys)
    (hn : ys.length < 2 ^ 63) {i : Nat} (h1 : i < t.length)
    (hc : v.cap < t.length + ys.length) (ha : E.allocOk (t.length + ys.length + 1) = false) :
    Str.insert E v z i = .exit .alloc := by
  simp [Str.insert, h.len, h1, strlen_ok hz, str_grow_fail h hn hc ha]

/-- Closing the gap left by the `n` characters at `i`. -/
theorem str_close_gap {v : Arr} {t : Text} (h : IsStr v t) {i n : Nat} (hi : i + n ≤ t.length) :
    ∃ m1 m2, vtMemmove v.mem i (i + n) (t.length - (i + n)) = .ok m1 ∧
      putc m1 (t.length - n) 0 = .ok m2 ∧
      IsStr { v with mem := m2, len := t.length - n } (t.take i ++ t.drop (i + n)) := by
  obtain ⟨rest, hm, hr⟩ := h.split
  have hlim := h.lim
  have hle := h.le
  obtain ⟨T, hT⟩ : ∃ T, T = (t.take i).map (some : UInt8 → Byte) := ⟨_, rfl⟩
  obtain ⟨M, hM⟩ : ∃ M, M = ((t.drop i).take n).map (some : UInt8 → Byte) := ⟨_, rfl⟩
  obtain ⟨D, hD⟩ : ∃ D, D = (t.drop (i + n)).map (some : UInt8 → Byte) := ⟨_, rfl⟩
  have hTl : T.length = i := by simp [hT]; omega
  have hMl : M.length = n := by simp [hM]; omega
  have hDl : D.length = t.length - (i + n) := by simp [hD]
  have hmem : v.mem = T ++ M ++ D ++ some 0 :: rest := by
    rw [hm, hT, hM, hD, ← List.drop_drop, ← List.map_append, ← List.map_append, List.append_assoc (t.take i),
      List.take_append_drop, List.take_append_drop]
  have hrd : readN v.mem (i + n) (t.length - (i + n)) = .ok D := by
    rw [hmem]; exact readN_mid _ _ _ (by simp [hTl, hMl]) hDl.symm
  obtain ⟨X, Y, e, hX⟩ : ∃ (X Y : Mem), M ++ D = X ++ Y ∧ X.length = D.length :=
    ⟨(M ++ D).take D.length, (M ++ D).drop D.length, by rw [List.take_append_drop], by simp⟩
  have hY : Y.length = n := by
    have := congrArg List.length e
    simp only [List.length_append] at this
    omega
  have hwr : writeN v.mem i D = .ok (T ++ D ++ (Y ++ some 0 :: rest)) := by
    have := writeN_mid T X (Y ++ some 0 :: rest) D (off := i) hTl.symm hX.symm
    rw [hmem, List.append_assoc T M D, e]
    simpa [List.append_assoc] using this
  have hmv : vtMemmove v.mem i (i + n) (t.length - (i + n)) = .ok (T ++ D ++ (Y ++ some 0 :: rest)) := by
    rw [vtMemmove_eq hrd, hwr]
    intro h0
    have hD0 : D = [] := List.eq_nil_of_length_eq_zero (by omega)
    rw [hD0, writeN_ok (by simp [h.size]; omega)]
    simp
  obtain ⟨x, R', hRR⟩ : ∃ x R', Y ++ some 0 :: rest = x :: R' := by
    cases Y with
    | nil => exact ⟨_, _, rfl⟩
    | cons x R' => exact ⟨_, _, rfl⟩
  have hRl : n + rest.length = R'.length := by
    have := congrArg List.length hRR
    simp [hY] at this; omega
  refine ⟨_, T ++ D ++ some 0 :: R', hmv, ?_, ?_⟩
  · rw [hRR]
    exact putc_mid _ _ _ _ (by simp [hTl, hDl]; omega)
  · refine IsStr.mk' (rest := R') h.es h.view (by simp [hT, hD]) ?_ (by simp; omega) ?_ h.lim
    · simp only [List.mem_append, not_or]
      exact ⟨fun h' => h.nz (List.mem_of_mem_take h'), fun h' => h.nz (List.mem_of_mem_drop h')⟩
    · simp; omega

theorem remove_ok {E : Env} {v : Arr} {t : Text} (h : IsStr v t) {i n : Nat} (h0 : 0 < n) (hi : i < t.length) :
    ∃ v', Str.remove E v i n = .ok v' ∧ IsStr v' (t.take i ++ t.drop (i + n)) ∧ v'.cap = v.cap ∧
      v'.slider = v.slider := by
  have hlim := h.lim
  have hle := h.le
  have w0 : wsub v.len i = t.length - i := by rw [h.len]; exact wsub_eq (by omega) (by omega)
  obtain ⟨k, hk, hk', hkt⟩ : ∃ k, (if n > wsub v.len i then wsub v.len i else n) = k ∧ i + k ≤ t.length ∧
      t.drop (i + n) = t.drop (i + k) := by
    rw [w0]
    by_cases hc : n > t.length - i
    · refine ⟨t.length - i, by rw [if_pos hc], by omega, ?_⟩
      rw [List.drop_of_length_le (by omega), List.drop_of_length_le (by omega)]
    · exact ⟨n, by rw [if_neg hc], by omega, rfl⟩
  obtain ⟨m1, m2, e1, e2, e3⟩ := str_close_gap h hk'
  have w1 : wadd i k = i + k := wadd_eq (by omega)
  have w2 : wmul i v.elsize = i := by rw [h.es]; exact wmul_one (by omega)
  have w3 : wmul (i + k) v.elsize = i + k := by rw [h.es]; exact wmul_one (by omega)
  have w4 : wsub v.len (i + k) = t.length - (i + k) := by rw [h.len]; exact wsub_eq (by omega) (by omega)
  have w5 : wmul (t.length - (i + k)) v.elsize = t.length - (i + k) := by rw [h.es]; exact wmul_one (by omega)
  have w6 : wsub v.len k = t.length - k := by rw [h.len]; exact wsub_eq (by omega) (by omega)
  refine ⟨{ v with mem := m2, len := t.length - k }, ?_, by rw [hkt]; exact e3, rfl, rfl⟩
  simp only [Str.remove, h0, h.len, hi, gt_iff_lt, decide_true, dassert_true, bind_ok]
  simp only [← h.len]
  simp only [gt_iff_lt] at hk
  simp only [hk, w1, w2, w3, w4, w5, w6, e1, e2, bind_ok]
  rw [h.len]

theorem clear_ok {v : Arr} {t : Text} (h : IsStr v t) :
    ∃ v', Str.clear v = .ok v' ∧ IsStr v' [] ∧ v'.cap = v.cap ∧ v'.slider = v.slider := by
  obtain ⟨x, r, hm⟩ : ∃ x r, v.mem = x :: r := by
    cases hm : v.mem with
    | nil => have := h.size; simp [hm] at this
    | cons x r => exact ⟨x, r, rfl⟩
  have hp : putc v.mem 0 0 = .ok (some 0 :: r) := by
    rw [hm]; exact putc_mid [] r x 0 rfl
  refine ⟨{ v with mem := some 0 :: r, len := 0 }, by simp [Str.clear, hp], ?_, rfl, rfl⟩
  refine IsStr.mk' (rest := r) h.es h.view (by simp) (by simp) (by simp) ?_ h.lim
  have := h.size
  rw [hm] at this
  simp at this ⊢; omega

theorem setN_ok {E : Env} {v : Arr} {t ys : Text} (h : IsStr v t) (hy : 0 ∉ ys) {z : Mem} (hz : Begins z ys)
    (h1 : 0 < ys.length ∨ E.debug = false) (hn : ys.length ≤ t.length) :
    ∃ v', Str.setN E v z ys.length = .ok v' ∧ IsStr v' ys ∧ v'.cap = v.cap ∧ v'.slider = v.slider := by
  have hd : dassert E (decide (ys.length > 0)) = .ok () := by
    rcases h1 with h1 | h1
    · simp [h1]
    · exact dassert_release h1 _
  obtain ⟨rest, hm, hr⟩ := h.split
  obtain ⟨tail, hz⟩ := hz
  have hlim := h.lim
  have hle := h.le
  have hlen : v.mem.length = v.cap + 1 := h.size
  obtain ⟨a, x, c, e, ha⟩ : ∃ (a : Mem) (x : Byte) (c : Mem), v.mem = a ++ x :: c ∧ a.length = ys.length := by
    refine ⟨v.mem.take ys.length, v.mem[ys.length]'(by omega), v.mem.drop (ys.length + 1), ?_, ?_⟩
    · rw [List.getElem_cons_drop, List.take_append_drop]
    · rw [List.length_take]; omega
  have e1 : vtMemcpyIn v.mem 0 z ys.length = .ok (ys.map some ++ x :: c) := by
    have := vtMemcpyIn_mid [] a (x :: c) z (off := 0) (n := ys.length) rfl hz (by simp) (by simp [ha])
    simpa [e] using this
  have e2 : putc (ys.map some ++ x :: c) ys.length 0 = .ok (ys.map some ++ some 0 :: c) :=
    putc_mid _ _ _ _ (by simp)
  have w : wmul ys.length v.elsize = ys.length := by rw [h.es]; exact wmul_one (by omega)
  have hen : enforce (decide (ys.length ≤ v.len)) = .ok () := by simp [h.len, hn]
  refine ⟨{ v with mem := ys.map some ++ some 0 :: c, len := ys.length }, ?_, ?_, rfl, rfl⟩
  · simp only [Str.setN, hd, hen, bind_ok, w, e1, e2]
  · refine IsStr.mk' (rest := c) h.es h.view rfl hy rfl ?_ h.lim
    have := congrArg List.length e
    simp [hlen, ha] at this ⊢; omega

theorem setN_reject {E : Env} {v : Arr} {t : Text} (h : IsStr v t) {z : Mem} {n : Nat} (hn : t.length < n) :
    Str.setN E v z n = .exit .enforce := by
  have : ¬ n ≤ t.length := by omega
  have h0 : 0 < n := by omega
  simp [Str.setN, h0, h.len, this]

theorem createLen_ok {E : Env} {n : Nat} (h1 : 0 < n ∨ E.debug = false) (hn : n < 2 ^ 63)
    (ha : E.allocOk arrStructSize = true) (hb : E.allocOk (n + 1) = true) :
    ∃ v, Str.createLen E n = .ok v ∧ IsStr v (List.replicate n 63) ∧ v.cap = n ∧ v.slider = 0 := by
  have hd : dassert E (decide (n > 0)) = .ok () := by
    rcases h1 with h1 | h1
    · simp [h1]
    · exact dassert_release h1 _
  have hlim := E.lim _ hb
  have w : wmul (wadd n 1) 1 = n + 1 := by rw [wadd_eq (by omega)]; exact wmul_one (by omega)
  have hms : vtMemset (List.replicate (n + 1) (some 0)) 0 63 n = .ok (List.replicate n (some 63) ++ [some 0]) := by
    unfold vtMemset
    by_cases h0 : n = 0
    · subst h0; rfl
    · rw [if_neg h0, memset]
      have := writeN_mid [] (List.replicate n (some (0 : UInt8))) [some 0] (List.replicate n (some 63)) (off := 0)
        rfl (by simp)
      simpa [List.replicate_succ'] using this
  refine ⟨⟨n, n, 1, 0, false, List.replicate n (some 63) ++ [some 0]⟩, ?_, ?_, rfl, rfl⟩
  · simp only [Str.createLen, hd, bind_ok, vtCalloc_ok (by decide : 0 < arrStructSize) ha, w,
      vtCalloc_ok (by omega : 0 < n + 1) hb, hms]
  · refine IsStr.mk' (rest := []) rfl rfl (by simp) ?_ (by simp) (by simp) (by simpa using hlim)
    simp

theorem createLen_fail {E : Env} {n : Nat} (h1 : 0 < n) (hn : n < 2 ^ 63)
    (ha : E.allocOk arrStructSize = false ∨ E.allocOk (n + 1) = false) :
    Str.createLen E n = .exit .alloc := by
  have w : wmul (wadd n 1) 1 = n + 1 := by rw [wadd_eq (by omega)]; exact wmul_one (by omega)
  cases hc : E.allocOk arrStructSize with
  | false => simp [Str.createLen, h1, vtCalloc_fail (by decide : 0 < arrStructSize) hc]
  | true =>
    have hb : E.allocOk (n + 1) = false := by
      rcases ha with ha | ha
      · rw [hc] at ha; simp at ha
      · exact ha
    simp [Str.createLen, h1, vtCalloc_ok (by decide : 0 < arrStructSize) hc, w,
      vtCalloc_fail (by omega : 0 < n + 1) hb]

theorem shrink_same {E : Env} {v : Arr} {t : Text} (h : IsStr v t) (hc : t.length = v.cap) :
    Str.shrink E v = .ok v := by
  simp [Str.shrink, h.view, h.len, hc]

theorem shrink_ok {E : Env} {v : Arr} {t : Text} (h : IsStr v t) (hc : t.length ≠ v.cap)
    (ha : E.allocOk (t.length + 1) = true) :
    ∃ v', Str.shrink E v = .ok v' ∧ IsStr v' t ∧ v'.cap = t.length ∧ v'.slider = v.slider := by
  obtain ⟨rest, hm, hr⟩ := h.split
  have hlim := h.lim
  have hle := h.le
  have w : wmul (wadd v.len 1) v.elsize = t.length + 1 := by
    rw [h.len, h.es, wadd_eq (by omega)]; exact wmul_one (by omega)
  have e : v.mem.take (t.length + 1) ++ List.replicate (t.length + 1 - v.mem.length) none =
      t.map some ++ [some 0] := by
    rw [show t.length + 1 - v.mem.length = 0 by rw [h.size]; omega, hm]
    rw [List.take_append, List.take_of_length_le (by simp)]
    simp
  have hc' : ¬ v.len = v.cap := by rw [h.len]; exact hc
  refine ⟨{ v with mem := t.map some ++ [some 0], cap := v.len }, ?_, ?_, h.len, rfl⟩
  · simp only [Str.shrink, h.view, Bool.not_false, enforce_true, bind_ok, if_neg hc', w,
      vtRealloc_ok (by omega : 0 < t.length + 1) ha, e]
    rw [putc_mid (t.map some) [] _ _ (by simp [h.len])]
    rfl
  · exact IsStr.mk' (rest := []) h.es h.view rfl h.nz h.len (by simp [h.len]) (by have := E.lim _ ha; simp [h.len]; omega)

theorem shrink_fail {E : Env} {v : Arr} {t : Text} (h : IsStr v t) (hc : t.length ≠ v.cap)
    (ha : E.allocOk (t.length + 1) = false) : Str.shrink E v = .exit .alloc := by
  have hlim := h.lim
  have hle := h.le
  have w : wmul (wadd v.len 1) v.elsize = t.length + 1 := by
    rw [h.len, h.es, wadd_eq (by omega)]; exact wmul_one (by omega)
  have hc' : ¬ v.len = v.cap := by rw [h.len]; exact hc
  simp only [Str.shrink, h.view, Bool.not_false, enforce_true, bind_ok, if_neg hc', w,
    vtRealloc_fail (by omega : 0 < t.length + 1) ha, bind_exit]

theorem resize_ok {E : Env} {v : Arr} {t : Text} (h : IsStr v t) {n : Nat} (hn : n < 2 ^ 63)
    (h1 : 0 < n ∨ E.debug = false) (ha : E.allocOk (n + 1) = true) :
    ∃ v', Str.resize E v n = .ok v' ∧ IsStr v' (t.take n) ∧ v'.cap = n ∧ v'.slider = v.slider := by
  have hd : dassert E (decide (n > 0)) = .ok () := by
    rcases h1 with h1 | h1
    · simp [h1]
    · exact dassert_release h1 _
  obtain ⟨rest, hm, hr⟩ := h.split
  have hlim := E.lim _ ha
  have hle := h.le
  have w : wmul (wadd n 1) v.elsize = n + 1 := by
    rw [h.es, wadd_eq (by omega)]; exact wmul_one (by omega)
  by_cases hc : n < t.length
  · have e : v.mem.take (n + 1) ++ List.replicate (n + 1 - v.mem.length) none =
        (t.take n).map some ++ [some t[n]] := by
      rw [show n + 1 - v.mem.length = 0 by rw [h.size]; omega, hm]
      rw [List.take_append_of_le_length (by simp; omega), ← List.map_take, List.take_succ_eq_append_getElem hc]
      rw [List.map_append]; simp
    refine ⟨{ v with mem := (t.take n).map some ++ [some 0], len := n, cap := n }, ?_, ?_, rfl, rfl⟩
    · simp only [Str.resize, hd, h.view, Bool.not_false, enforce_true, bind_ok, w,
        vtRealloc_ok (by omega : 0 < n + 1) ha, e]
      rw [putc_mid _ [] _ _ (by simp; omega)]
      simp [h.len, hc]
    · refine IsStr.mk' (rest := []) h.es h.view rfl (fun h' => h.nz (List.mem_of_mem_take h')) (by simp; omega) (by simp; omega) (by simpa using hlim)
  · have ht : t.take n = t := List.take_of_length_le (by omega)
    obtain ⟨r', e, hr'⟩ : ∃ r' : Mem, v.mem.take (n + 1) ++ List.replicate (n + 1 - v.mem.length) none =
        t.map some ++ some 0 :: r' ∧ t.length + r'.length = n := by
      refine ⟨rest.take (n - t.length) ++ List.replicate (n + 1 - v.mem.length) none, ?_, ?_⟩
      · have e1 : n + 1 - t.length = (n - t.length) + 1 := by omega
        rw [hm, List.take_append, List.take_of_length_le (by simp; omega)]
        simp [e1]
      · simp [hr, h.size]; omega
    obtain ⟨r'', e2, hr''⟩ : ∃ r'' : Mem, (t.map (some : UInt8 → Byte) ++ some 0 :: r').set n (some 0) = t.map some ++ some 0 :: r'' ∧
        t.length + r''.length = n := by
      rcases Nat.eq_or_lt_of_le (by omega : t.length ≤ n) with he | he
      · refine ⟨r', ?_, hr'⟩
        rw [List.set_append_right _ _ (by simp; omega)]
        simp [he]
      · refine ⟨r'.set (n - t.length - 1) (some 0), ?_, by simpa using hr'⟩
        rw [List.set_append_right _ _ (by simp; omega)]
        obtain ⟨k, hk⟩ : ∃ k, n - t.length = k + 1 := ⟨n - t.length - 1, by omega⟩
        simp [hk]
    refine ⟨{ v with mem := t.map some ++ some 0 :: r'', len := t.length, cap := n }, ?_, ?_, rfl, rfl⟩
    · simp only [Str.resize, hd, h.view, Bool.not_false, enforce_true, bind_ok, w,
        vtRealloc_ok (by omega : 0 < n + 1) ha, e]
      rw [putc_ok (by simp; omega), e2]
      simp [h.len, hc]
    · rw [ht]
      exact IsStr.mk' (rest := r'') h.es h.view rfl h.nz rfl hr'' (by simpa using hlim)

theorem resize_fail {E : Env} {v : Arr} {t : Text} (h : IsStr v t) {n : Nat} (hn : n < 2 ^ 63)
    (h1 : 0 < n) (ha : E.allocOk (n + 1) = false) : Str.resize E v n = .exit .alloc := by
  have w : wmul (wadd n 1) v.elsize = n + 1 := by
    rw [h.es, wadd_eq (by omega)]; exact wmul_one (by omega)
  simp [Str.resize, h1, h.view, w, vtRealloc_fail (by omega : 0 < n + 1) ha]

/-- Overwriting one character of the text. -/
theorem str_put_char {v : Arr} {t : Text} (h : IsStr v t) {i : Nat} (hi : i < t.length) {c : UInt8} (hc : c ≠ 0) :
    ∃ m, putc v.mem i c = .ok m ∧ IsStr { v with mem := m } (t.set i c) := by
  obtain ⟨rest, hm, hr⟩ := h.split
  have hle := h.le
  refine ⟨v.mem.set i (some c), putc_ok (by rw [h.size]; omega) c, ?_⟩
  refine IsStr.mk' (rest := rest) h.es h.view ?_ ?_ (by simp [h.len]) (by simp [hr]; omega) h.lim
  · simp only [hm]
    rw [List.set_append_left _ _ (by simpa using hi), List.map_set]
  · intro h'
    rcases List.mem_or_eq_of_mem_set h' with h' | h'
    · exact h.nz h'
    · exact hc h'.symm

theorem setC_ok {E : Env} {v : Arr} {t : Text} (h : IsStr v t) {i : Nat} (hi : i < t.length) {c : UInt8} (hc : c ≠ 0) :
    ∃ v', Str.setC E v c i = .ok v' ∧ IsStr v' (t.set i c) ∧ v'.cap = v.cap ∧ v'.slider = v.slider := by
  obtain ⟨m, h1, h2⟩ := str_put_char h hi hc
  refine ⟨_, ?_, h2, rfl, rfl⟩
  simp [Str.setC, h.len, hi, h1]

/-- Overwriting a stretch of the text by one of the same length. -/
theorem str_overwrite {v : Arr} {t ys : Text} (h : IsStr v t) (hy : 0 ∉ ys) {z : Mem} (hz : Begins z ys)
    {i : Nat} (hi : i + ys.length ≤ t.length) :
    ∃ m, vtMemcpyIn v.mem i z ys.length = .ok m ∧
      IsStr { v with mem := m } (t.take i ++ ys ++ t.drop (i + ys.length)) := by
  obtain ⟨rest, hm, hr⟩ := h.split
  obtain ⟨tail, hz⟩ := hz
  have hle := h.le
  refine ⟨(t.take i).map some ++ ys.map some ++ ((t.drop (i + ys.length)).map some ++ some 0 :: rest), ?_, ?_⟩
  · have e : v.mem = (t.take i).map some ++ ((t.drop i).take ys.length).map some ++
        ((t.drop (i + ys.length)).map some ++ some 0 :: rest) := by
      rw [hm, ← List.drop_drop, ← List.append_assoc, ← List.map_append, ← List.map_append, List.append_assoc (t.take i),
        List.take_append_drop, List.take_append_drop]
    rw [e]
    exact vtMemcpyIn_mid _ _ _ _ (by simp; omega) hz (by simp) (by simp; omega)
  · refine IsStr.mk' (rest := rest) h.es h.view (by simp) ?_ (by simp [h.len]; omega) (by simp [hr]; omega) h.lim
    simp only [List.mem_append, not_or]
    exact ⟨⟨fun h' => h.nz (List.mem_of_mem_take h'), hy⟩, fun h' => h.nz (List.mem_of_mem_drop h')⟩

end Vita
