import Verif.Props.StrEdit
/-!
# Formatted text: failures, the longest texts, embedded NULs (C36, C116)
-/

namespace Vita
open Out Spec

/-- The part of a formatted text that a reader of C strings sees. -/
def Spec.upToNul (o : Text) : Text := o.takeWhile (· ≠ 0)

/-- The formatter cannot deliver: it fails, or its text is longer than an `int` can count. -/
def Spec.FormatFails (out : Option Text) : Prop := ∀ o, out = some o → 2 ^ 31 ≤ o.length

theorem printed_fails {out : Option Text} (h : FormatFails out) : Str.printed out = none := by
  unfold Str.printed
  cases out with
  | none => rfl
  | some o => exact if_neg (by have := h o rfl; omega)

theorem printed_some {o : Text} (h : o.length < 2 ^ 31) : Str.printed (some o) = some o := if_pos h

/-- **C116** If the formatter fails, `vt_str_appendf` and `vt_str_insertf` report failure and leave the string (and any
other memory) as it was, whatever the string and the position. -/
theorem C116_failure (E : Env) (v : Arr) (i : Nat) {out : Option Text} (h : FormatFails out) :
    Str.appendfStatus E v out = .ok (v, false) ∧ Str.insertfStatus E v i out = .ok (v, false) := by
  unfold Str.appendfStatus Str.insertfStatus
  rw [printed_fails h]
  exact ⟨rfl, rfl⟩

/-- **C116** If the formatter delivers a text, success is reported and the text is at the end of the string. -/
theorem C116_append_success {E : Env} {v : Arr} {t out : Text} (h : IsStr v t) (h0 : 0 ∉ out) (hl : out.length < 2 ^ 31)
    (ha : t.length + out.length ≤ v.cap ∨ E.allocOk (t.length + out.length + 1) = true) :
    ∃ v', Str.appendfStatus E v (some out) = .ok (v', true) ∧ IsStr v' (t ++ out) := by
  obtain ⟨v', e, s, -⟩ := C36_appendf h h0 hl ha
  refine ⟨v', ?_, s⟩
  unfold Str.appendfStatus
  rw [printed_some hl]
  simp only [e, bind_ok]

/-- **C116** The same for `vt_str_insertf`, except for texts of exactly `INT_MAX` characters. -/
theorem C116_insert_success_partial {E : Env} (hD : E.debug = true) {v : Arr} {t out : Text} (h : IsStr v t) (h0 : 0 ∉ out)
    (hl : out.length + 1 < 2 ^ 31) {i : Nat} (hi : i < t.length) :
    OkOr E (4 * t.length + 2 * out.length + 56) (Str.insertfStatus E v i (some out))
      fun r => r.2 = true ∧ IsStr r.1 (t.take i ++ out ++ t.drop i) := by
  unfold Str.insertfStatus
  rw [printed_some (by omega)]
  exact (C36_insertf_partial hD h h0 hl hi).bind fun v' s => OkOr.ok ⟨rfl, s⟩

/-- **C36** is false for `vt_str_insertf` and a text of exactly `INT_MAX` characters, for every string and position: adding
one to the `int` length overflows. -/
theorem C36_insertf_longest (E : Env) (v : Arr) (i : Nat) {out : Text} (hl : out.length = 2 ^ 31 - 1)
    (h1 : E.allocOk 56 = true) (h2 : E.allocOk (2 ^ 31) = true) : Str.insertf E v i out = .ub := by
  unfold Str.insertf
  rw [if_neg (by rw [hl]; decide)]
  have hv : ∀ a, Str.vfmtSet E a out = .ub := fun a => if_pos (by omega)
  obtain ⟨a, e, -⟩ := createLen_ok (E := E) (n := out.length) (Or.inl (by omega)) (by omega) h1
    (by rw [hl]; exact h2)
  simp only [e, bind_ok, hv, bind_ub]

/-- The block of a string after something with a NUL inside was printed behind its text. -/
theorem print_any {v : Arr} {t ys : Text} (h : IsStr v t) (hc : t.length + ys.length ≤ v.cap) :
    ∃ m1 m2 rest, writeN v.mem t.length (ys.map some ++ [some 0]) = .ok m1 ∧
      putc m1 (t.length + ys.length) 0 = .ok m2 ∧ m2 = t.map some ++ ys.map some ++ some 0 :: rest := by
  obtain ⟨rest, hm, hr⟩ := h.split
  obtain ⟨old, rest', e, hl⟩ : ∃ (old rest' : Mem), some 0 :: rest = old ++ rest' ∧
      old.length = ys.length + 1 := by
    have hlen : ys.length < (some (0:UInt8) :: rest).length := by simp [hr]; omega
    refine ⟨(some 0 :: rest).take (ys.length + 1), (some 0 :: rest).drop (ys.length + 1), ?_, ?_⟩
    · rw [List.take_append_drop]
    · rw [List.length_take]; omega
  refine ⟨t.map some ++ (ys.map some ++ [some 0]) ++ rest', t.map some ++ ys.map some ++ some 0 :: rest', rest', ?_, ?_, rfl⟩
  · rw [hm, e, ← List.append_assoc]
    exact writeN_mid _ _ _ _ (by simp) (by simp [hl])
  · rw [show t.map (some : UInt8 → Byte) ++ (ys.map some ++ [some 0]) ++ rest' =
      t.map some ++ ys.map some ++ some 0 :: rest' by simp]
    exact putc_mid _ _ _ _ (by simp)

theorem upToNul_split (ys : Text) (h : 0 ∈ ys) : ∃ r, ys = upToNul ys ++ 0 :: r := by
  induction ys with
  | nil => cases h
  | cons a ys ih =>
    unfold upToNul
    by_cases ha : a = 0
    · exact ⟨ys, by simp [ha]⟩
    · obtain ⟨r, e⟩ := ih (by rcases List.mem_cons.1 h with h | h; exact absurd h.symm ha; exact h)
      refine ⟨r, ?_⟩
      rw [List.takeWhile_cons_of_pos (by simpa using ha)]
      rw [List.cons_append]
      exact congrArg _ e

theorem upToNul_nz (ys : Text) : 0 ∉ upToNul ys := by
  induction ys with
  | nil => simp [upToNul]
  | cons a ys ih =>
    unfold upToNul at *
    rw [List.takeWhile_cons]
    split
    · rename_i ha
      simp only [List.mem_cons, not_or]
      exact ⟨fun e => by subst e; simp at ha, ih⟩
    · simp

theorem upToNul_self {ys : Text} (h : 0 ∉ ys) : upToNul ys = ys := by
  induction ys with
  | nil => rfl
  | cons a ys ih =>
    simp only [List.mem_cons, not_or] at h
    unfold upToNul at *
    rw [List.takeWhile_cons_of_pos (by simpa using fun e => h.1 e.symm), ih h.2]

theorem upToNul_le (ys : Text) : (upToNul ys).length ≤ ys.length := (List.takeWhile_sublist _).length_le

/-- The text at the beginning of a block that begins with `ys` and a NUL. -/
theorem scanZ_upToNul (ys : Text) (rest : Mem) : scanZ (ys.map some ++ some 0 :: rest) = .ok (upToNul ys) := by
  refine scanZ_eq_ok.2 ⟨?_, upToNul_nz ys⟩
  by_cases h : 0 ∈ ys
  · obtain ⟨r, e⟩ := upToNul_split ys h
    refine ⟨r.map some ++ some 0 :: rest, ?_⟩
    conv_lhs => rw [e]
    simp
  · refine ⟨rest, ?_⟩
    rw [upToNul_self h]

/-- **C36** A formatted text with a NUL inside (`%c` of 0): `vt_str_appendf` counts all of it in the length, while the
text of the string goes on only up to the NUL, so that the string is no longer well formed; for every string. -/
theorem C36_appendf_nul {E : Env} {v : Arr} {t out : Text} (h : IsStr v t) (h0 : 0 ∈ out) (hl : out.length < 2 ^ 31)
    (ha : t.length + out.length ≤ v.cap ∨ E.allocOk (t.length + out.length + 1) = true) :
    ∃ v', Str.appendf E v out = .ok v' ∧ Str.z v' = .ok (t ++ upToNul out) ∧ Str.length v' = t.length + out.length ∧
      ∀ t', ¬ IsStr v' t' := by
  obtain ⟨g, hg, gs, gc, gsl⟩ := str_grow_ok (E := E) h (n := out.length) (by omega) ha
  obtain ⟨m1, m2, rest, e1, e2, e3⟩ := print_any (ys := out) gs (by omega)
  have hlim := gs.lim
  have hle := gs.le
  have w1 : wmul g.len g.elsize = t.length := by rw [gs.es, gs.len]; exact wmul_one (by omega)
  have w3 : wadd g.len out.length = t.length + out.length := by rw [gs.len]; exact wadd_eq (by omega)
  have hz : scanZ m2 = .ok (t ++ upToNul out) := by
    rw [e3, ← List.map_append, scanZ_upToNul]
    unfold upToNul
    rw [List.takeWhile_append_of_pos]
    intro x hx
    simp only [ne_eq, decide_not, Bool.not_eq_eq_eq_not, Bool.not_true, decide_eq_false_iff_not]
    rintro rfl
    exact gs.nz hx
  refine ⟨{ g with mem := m2, len := t.length + out.length }, ?_, hz, rfl, ?_⟩
  · simp only [Str.appendf, hg, bind_ok, w1, w3, e1, e2]
  · intro t' hs
    have ht : t' = t ++ upToNul out := by
      have := hs.text
      simp only at this
      rw [hz] at this
      injection this with this
      exact this.symm
    have hlen := hs.len
    simp only at hlen
    obtain ⟨r, e⟩ := upToNul_split out h0
    have := congrArg List.length e
    simp only [List.length_append, List.length_cons] at this
    rw [ht, List.length_append] at hlen
    omega

/-- **C36** `vt_str_insertf` inserts such a text only up to the NUL (and the string stays well formed). -/
theorem C36_insertf_nul {E : Env} (hD : E.debug = true) {v : Arr} {t out : Text} (h : IsStr v t)
    (hl : out.length + 1 < 2 ^ 31) {i : Nat} (hi : i < t.length) :
    OkOr E (4 * t.length + 2 * out.length + 56) (Str.insertf E v i out)
      fun v' => IsStr v' (t.take i ++ upToNul out ++ t.drop i) := by
  have hul := upToNul_le out
  have hins : ∀ z, CStr z (upToNul out) → OkOr E (4 * t.length + 2 * out.length + 56) (Str.insert E v z i)
      fun v' => IsStr v' (t.take i ++ upToNul out ++ t.drop i) := by
    intro z hz
    rcases sim_insert hD h hz i with ⟨hi', -⟩ | ⟨-, ⟨v', e, s, -⟩ | ⟨e, st⟩⟩
    · omega
    · exact Or.inl ⟨v', e, s⟩
    · rcases store_cases E v t (t.take i ++ upToNul out ++ t.drop i) with ⟨-, hs⟩ | ⟨-, hb, -⟩
      · rw [hs] at st; cases st
      · exact Or.inr ⟨e, _, by simp; omega, hb⟩
  unfold Str.insertf
  by_cases hc : out.length < tmpBufferSize - 1
  · rw [if_pos hc]
    have hw : 0 + (out.map (some : UInt8 → Byte) ++ [some 0]).length ≤ (List.replicate tmpBufferSize (some (0 : UInt8))).length := by
      rw [List.length_replicate, List.length_append, List.length_map, List.length_singleton]; omega
    rw [writeN_ok hw, bind_ok]
    refine hins _ ⟨?_, by omega⟩
    simp only [List.take_zero, List.nil_append, Nat.zero_add]
    rw [List.append_assoc]
    exact scanZ_upToNul _ _
  · rw [if_neg hc]
    have hp : 0 < out.length := by simp only [tmpBufferSize] at hc; omega
    have hcl : OkOr E (4 * t.length + 2 * out.length + 56) (Str.createLen E out.length)
        fun v => IsStr v (List.replicate out.length 63) ∧ v.cap = out.length ∧ v.slider = 0 :=
      (createLen_okOr hp (by omega)).le (by omega)
    refine hcl.bind ?_
    rintro a ⟨ha, hac, -⟩
    have hw : wadd out.length 1 = out.length + 1 := wadd_eq (by omega)
    have hvf : OkOr E (4 * t.length + 2 * out.length + 56) (Str.vfmtSet E a out) fun v' => CStr v'.mem (upToNul out) := by
      unfold Str.vfmtSet
      rw [if_neg (by omega)]
      simp only [hw]
      have hg : OkOr E (4 * t.length + 2 * out.length + 56) (Str.grow E a (out.length + 1))
          fun g => IsStr g (List.replicate out.length 63) ∧ out.length + (out.length + 1) ≤ g.cap := by
        cases hb : E.allocOk (out.length + (out.length + 1) + 1) with
        | true =>
          obtain ⟨g, e1, s1, c1, -⟩ := str_grow_ok (E := E) ha (n := out.length + 1) (by omega) (Or.inr (by simpa using hb))
          exact Or.inl ⟨g, e1, s1, by simp at c1; omega⟩
        | false => exact Or.inr ⟨str_grow_fail ha (by omega) (by simp; omega) (by simpa using hb), _, by omega, hb⟩
      refine hg.bind ?_
      rintro g ⟨gs, gc⟩
      have hsz := gs.size
      rw [writeN_ok (by simp [hsz]; omega), bind_ok, putc_ok (by simp [hsz]; omega), bind_ok]
      refine OkOr.ok ⟨?_, by omega⟩
      simp only [List.take_zero, List.nil_append, List.append_assoc, List.length_append, List.length_map,
        List.length_cons, List.length_nil, Nat.zero_add]
      rw [List.set_append_right _ _ (by simp)]
      simp only [List.length_map, Nat.add_sub_cancel_left, List.cons_append, List.nil_append, List.set_cons_succ]
      exact scanZ_upToNul _ _
    refine hvf.bind ?_
    intro b hb
    exact hins _ hb

example : (Str.appendfStatus exE (strObj [97] 0) (some [98, 99])).mapOk (fun r => (Str.z r.1, r.2)) = .ok (.ok [97, 98, 99], true) := by
  decide +kernel
example : (List.replicate (2 ^ 31 - 1) (65 : UInt8)).length = 2 ^ 31 - 1 := List.length_replicate
example : FormatFails none := by intro o h; cases h
example : Str.insertfStatus exE (strObj [97] 0) 0 none = .ok (strObj [97] 0, false) := by decide +kernel
example : (Str.appendf exE (strObj [97] 0) [98, 0, 99]).mapOk (fun r => (Str.z r, Str.length r)) = .ok (.ok [97, 98], 4) := by
  decide +kernel
example : (Str.insertf exE (strObj [97, 100] 0) 1 [98, 0, 99]).mapOk Str.z = .ok (.ok [97, 98, 100]) := by decide +kernel

end Vita
