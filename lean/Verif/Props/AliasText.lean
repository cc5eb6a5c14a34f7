import Verif.Model.AliasText
import Verif.Props.Alias
import Verif.Props.StrQuery
import Verif.Props.PathText
/-!
# Property C102: text inside a string as an argument of calls that change the string
-/

namespace Vita
open Out Spec

seal wadd wsub wmul

/-! ## Removing and replacing text -/

theorem suffix_occurs {t : Text} {off : Nat} (ho : off ≤ t.length) : OccursAt t (t.drop off) off :=
  ⟨t.take off, [], by simp, by simp; omega⟩

theorem exists_first {t sub : Text} {i : Nat} (h : OccursAt t sub i) : ∃ j, IsFirst t sub j ∧ j ≤ i := by
  cases hf : findSub t sub with
  | none => exact absurd ⟨i, h⟩ (findSub_none.1 hf)
  | some j =>
    have hj := findSub_some.1 hf
    exact ⟨j, hj, Nat.le_of_not_lt fun hlt => hj.2 i hlt h⟩

/-- **C102** Removing the first occurrence of the text that begins at position `off` of the string: as with a copy
of that text. -/
theorem C102_remove_first_own (v : Arr) (t : Text) (h : IsStr v t) (off : Nat) (ho : off ≤ t.length) :
    ∃ i v', IsFirst t (t.drop off) i ∧ Str.removeFirstOwn v off = .ok (v', true) ∧
      IsStr v' (t.take i ++ t.drop (i + (t.length - off))) ∧ v'.cap = v.cap := by
  obtain ⟨i, hi, _⟩ := exists_first (suffix_occurs ho)
  obtain ⟨v', r, s, c⟩ := (C19_remove_first h (own_text h ho)).1 i hi
  rw [List.length_drop] at s
  exact ⟨i, v', hi, r, s, c⟩

theorem removeAllOwn_empty {off : Nat} : ∀ (k : Nat) {v : Arr} {t : Text}, IsStr v t → t.length = off →
    Str.removeAllOwn off k v = .fuel
  | 0, _, _, _, _ => rfl
  | k + 1, v, t, h, hl => by
    have hz : CStr (v.mem.drop off) [] := by
      have := own_text h (off := off) (by omega)
      rwa [show t.drop off = [] from List.drop_of_length_le (by omega)] at this
    have hf : IsFirst t [] 0 := ⟨⟨[], t, by simp, rfl⟩, fun j hj => by omega⟩
    obtain ⟨v', r, s, _⟩ := (C19_remove_first h hz).1 0 hf
    simp only [List.take_zero, List.nil_append, List.length_nil, Nat.add_zero, List.drop_zero] at s
    unfold Str.removeAllOwn Str.removeFirstOwn
    rw [r, bind_ok]
    exact removeAllOwn_empty k s hl

/-- **C102** (the defect) Removing all occurrences of a text inside the string never ends: after the first removal the
argument points at the terminator, the empty text, which is found and "removed" again and again. -/
theorem C102_remove_all_own_never_ends (v : Arr) (t : Text) (h : IsStr v t) (off : Nat) (ho : off ≤ t.length) (k : Nat) :
    Str.removeAllOwn off k v = .fuel := by
  cases k with
  | zero => rfl
  | succ k =>
    obtain ⟨i, v', hi, r, s, _⟩ := C102_remove_first_own v t h off ho
    unfold Str.removeAllOwn
    rw [r, bind_ok]
    have := hi.1.le
    rw [List.length_drop] at this
    exact removeAllOwn_empty k s (by simp; omega)

/-- **C102** Replacing the first occurrence of the text that begins at position `off` of the string: as with a copy. -/
theorem C102_replace_first_own {E : Env} (v : Arr) (t rs : Text) (h : IsStr v t) (off : Nat) (ho : off < t.length)
    (rsub : Mem) (hr : CStr rsub rs) (hr0 : rs ≠ []) :
    ∃ i, IsFirst t (t.drop off) i ∧ OkOr E (t.length + rs.length + 1) (Str.replaceFirstOwn E v off rsub) fun v' =>
      IsStr v' (t.take i ++ rs ++ t.drop (i + (t.length - off))) := by
  obtain ⟨i, hi, _⟩ := exists_first (suffix_occurs (Nat.le_of_lt ho))
  have h0 : t.drop off ≠ [] := by simp; omega
  have := (C24_replace_first_partial (E := E) h (own_text h (Nat.le_of_lt ho)) hr h0 hr0).1 i hi
  rw [List.length_drop] at this
  exact ⟨i, hi, this⟩

theorem replaceOwn_step {E : Env} {v : Arr} {t rs : Text} (h : IsStr v t) {off : Nat} (ho : off < t.length)
    (hu : ∀ j, OccursAt t (t.drop off) j → j = off) {rsub : Mem} (hr : CStr rsub rs) (hr0 : rs ≠ []) (k : Nat) :
    Str.replaceOwn E (k + 1) v off rsub = (do
      let w ← Str.replaceAt E v off (t.length - off) rs.length rsub
      if w.cap ≠ v.cap then .ub else
        Str.replaceLoopOwn E off rsub (t.length - off) rs.length k w (off + rs.length)) := by
  have hz := own_text h (Nat.le_of_lt ho)
  have hl : (t.drop off).length = t.length - off := by simp
  have hrl : 0 < rs.length := List.length_pos_iff.2 hr0
  have hf : IsFirst t (t.drop off) off :=
    ⟨suffix_occurs (Nat.le_of_lt ho), fun j hj hc => by have := hu j hc; omega⟩
  unfold Str.replaceOwn
  rw [strlen_ok hz.text, bind_ok, strlen_ok hr.text, bind_ok, hl, if_neg (by omega)]
  conv_lhs => unfold Str.replaceLoopOwn
  rw [strstrAt_ok h.text hz.text (Nat.zero_le _), bind_ok, List.drop_zero, findSub_some.2 hf]
  simp only [Option.map_some, Nat.zero_add]

/-- **C102** (partial: the text occurs nowhere else in the string, and the result fits the capacity).  Replacing all
occurrences of the text that begins at position `off` of the string. -/
theorem C102_replace_own_partial {E : Env} (v : Arr) (t rs : Text) (h : IsStr v t) (off : Nat) (ho : off < t.length)
    (hu : ∀ j, OccursAt t (t.drop off) j → j = off) (rsub : Mem) (hr : CStr rsub rs) (hr0 : rs ≠ [])
    (hc : off + rs.length ≤ v.cap) (k : Nat) (hk : 2 ≤ k) :
    ∃ v', Str.replaceOwn E k v off rsub = .ok v' ∧ IsStr v' (replaceAll t (t.drop off) rs) ∧ v'.cap = v.cap := by
  obtain ⟨k, rfl⟩ : ∃ j, k = j + 2 := ⟨k - 2, by omega⟩
  have hlim := h.lim
  have hle := h.le
  have hrl : 0 < rs.length := List.length_pos_iff.2 hr0
  have hf : IsFirst t (t.drop off) off :=
    ⟨suffix_occurs (Nat.le_of_lt ho), fun j hj hc => by have := hu j hc; omega⟩
  have hall : replaceAll t (t.drop off) rs = t.take off ++ rs := by
    rw [(C23_replaceAll_meaning (r := rs) (by simp; omega : t.drop off ≠ [])).2 off hf, List.length_drop,
      List.drop_of_length_le (show t.length ≤ off + (t.length - off) by omega)]
    simp [replaceAll, replGo]
  rw [hall, replaceOwn_step h ho hu hr hr0]
  -- the replacement cannot ask for memory
  have hat : ∃ w, Str.replaceAt E v off (t.length - off) rs.length rsub = .ok w ∧
      IsStr w (t.take off ++ rs) ∧ w.cap = v.cap := by
    have hsp : splice t off (t.length - off) rs = t.take off ++ rs := by
      unfold splice
      rw [List.drop_of_length_le (show t.length ≤ off + (t.length - off) by omega), List.append_nil]
    have hn : 0 < t.length - off := by omega
    by_cases hq : t.length - off = rs.length
    · rcases replaceAt_okOr (E := E) h hr hr0 hn (i := off) (by omega) with ⟨w, e, s, c, _⟩ | ⟨e, _⟩
      · rw [hsp] at s
        exact ⟨w, e, s, by rw [c]; omega⟩
      · unfold Str.replaceAt at e
        rw [if_pos hq] at e
        have hb : vtMemcpyIn v.mem off rsub rs.length ≠ .exit .alloc := by
          unfold vtMemcpyIn memcpyIn readN writeN
          (repeat' split) <;> (simp; try split) <;> simp
        cases hm : vtMemcpyIn v.mem off rsub rs.length with
        | ok m => rw [hm, bind_ok] at e; cases e
        | exit w => rw [hm, bind_exit] at e; rw [hm] at hb; injection e with e; subst e; exact absurd rfl hb
        | ub => rw [hm, bind_ub] at e; cases e
        | fuel => rw [hm] at e; cases e
    · obtain ⟨w, e, s, c, _⟩ := remove_ok (E := E) h hn ho
      rw [List.drop_of_length_le (show t.length ≤ off + (t.length - off) by omega), List.append_nil] at s
      have hwl : w.len = off := by rw [s.len]; simp; omega
      have htl : (t.take off).length = off := by simp; omega
      obtain ⟨w', e', s', c'⟩ := C16_append (E := E) s hr hr0 (Or.inl (by rw [htl, c]; omega))
      refine ⟨w', ?_, s', by rw [c', c, htl]; omega⟩
      unfold Str.replaceAt
      rw [if_neg hq, e, bind_ok, if_neg (by omega), e']
  obtain ⟨w, e, s, c⟩ := hat
  refine ⟨w, ?_, s, c⟩
  have htl : (t.take off).length = off := by simp; omega
  have hz : CStr (w.mem.drop off) rs := by
    have := own_text s (off := off) (by simp; omega)
    rwa [List.drop_append_of_le_length (by omega), show (t.take off).drop off = [] from List.drop_of_length_le (by omega),
      List.nil_append] at this
  rw [e, bind_ok, if_neg (by rw [c]; simp)]
  unfold Str.replaceLoopOwn
  rw [strstrAt_ok s.text hz.text (by simp; omega), bind_ok,
    List.drop_of_length_le (show (t.take off ++ rs).length ≤ off + rs.length by simp; omega), findSub]
  simp [hr0]

/-- **C102** (the defect) If the result does not fit, the block is reallocated and the argument is invalid when the
search goes on. -/
theorem C102_replace_own_ub {E : Env} (v : Arr) (t rs : Text) (h : IsStr v t) (off : Nat) (ho : off < t.length)
    (hu : ∀ j, OccursAt t (t.drop off) j → j = off) (rsub : Mem) (hr : CStr rsub rs) (hr0 : rs ≠ [])
    (hc : v.cap < off + rs.length) (ha : ∀ n, n ≤ off + rs.length + 1 → E.allocOk n = true) (k : Nat) (hk : 2 ≤ k) :
    Str.replaceOwn E k v off rsub = .ub := by
  obtain ⟨k, rfl⟩ : ∃ j, k = j + 2 := ⟨k - 2, by omega⟩
  rw [replaceOwn_step h ho hu hr hr0]
  rcases replaceAt_okOr (E := E) h hr hr0 (n := t.length - off) (i := off) (by omega) (by omega) with
    ⟨w, e, _, c, _⟩ | ⟨_, n, hn, hf⟩
  · rw [e, bind_ok, if_pos (by rw [c]; omega)]
  · rw [ha n (by omega)] at hf; cases hf

/-- **C102** (the defect) Replacing the `ab` at the end of `abcab` by `x`: after the first replacement the argument reads
`b`, and the result is `xcax`. -/
theorem C102_replace_own_counterexample :
    (Str.replaceOwn exE 9 (strObj [97, 98, 99, 97, 98] 4) 3 (zstr [120])).mapOk Str.z = .ok (.ok [120, 99, 97, 120]) ∧
    replaceAll [97, 98, 99, 97, 98] [97, 98] [120] = [120, 99, 120] := by decide +kernel

/-! ## Removing, stripping and replacing characters -/

theorem ownIdx_go {m a : Mem} {off : Nat} {x : UInt8} : ∀ (todo done : Text) {rest : Mem},
    m = a ++ (done ++ todo).map some ++ rest → a.length = off →
    Str.ownIdx m off x todo.length done.length = .ok (if x ∈ todo then some (done.length + todo.idxOf x) else none)
  | [], done, rest, _, _ => by simp [Str.ownIdx]
  | y :: todo, done, rest, hm, ha => by
    have hg : getc m (off + done.length) = .ok y := by
      have := getc_mid (a ++ done.map some) (todo.map some ++ rest) y (i := off + done.length) (by simp [ha])
      rw [hm]; simpa using this
    simp only [List.length_cons, Str.ownIdx, hg, bind_ok]
    by_cases hx : x = y
    · subst hx; simp
    · rw [if_neg hx]
      have := ownIdx_go (m := m) (a := a) (off := off) (x := x) todo (done ++ [y]) (rest := rest) (by rw [hm]; simp) ha
      rw [List.length_append, List.length_singleton] at this
      rw [this]
      have hi : (y :: todo).idxOf x = todo.idxOf x + 1 := List.idxOf_cons_ne _ (fun h => hx h.symm)
      by_cases hin : x ∈ todo
      · rw [if_pos hin, if_pos (List.mem_cons_of_mem _ hin), hi]
        congr 2; omega
      · rw [if_neg hin, if_neg (by simp [hx, hin])]

theorem ownIdx_eq {m : Mem} {off : Nat} {x : UInt8} {cs : Text} (h : (m.drop off).take cs.length = cs.map some)
    (ho : off ≤ m.length) :
    Str.ownIdx m off x cs.length 0 = .ok (if x ∈ cs then some (cs.idxOf x) else none) := by
  have hm : m = m.take off ++ ([] ++ cs).map some ++ m.drop (off + cs.length) := by
    rw [List.nil_append, ← h, List.append_assoc, ← List.drop_drop, List.take_append_drop, List.take_append_drop]
  have := ownIdx_go (off := off) (x := x) cs [] hm (by simp; omega)
  simpa using this

/-- A write below `off` does not change what is read from `off` on. -/
theorem putc_keeps {m m' : Mem} {i off n : Nat} {y : UInt8} (h : putc m i y = .ok m') (hi : i < off) :
    (m'.drop off).take n = (m.drop off).take n ∧ m'.length = m.length := by
  by_cases hl : i < m.length
  · rw [putc_ok hl] at h
    injection h with h
    subst h
    exact ⟨by rw [List.drop_set, if_pos hi], by simp⟩
  · rw [putc_ub (by omega)] at h; cases h

theorem slot_mem {m : Mem} {off i : Nat} {cs : Text} {x : UInt8} (h : (m.drop off).take cs.length = cs.map some)
    (h1 : off ≤ i) (h2 : i < off + cs.length) (hg : getc m i = .ok x) : cs[i - off]? = some x := by
  have e : ((m.drop off).take cs.length)[i - off]? = (cs.map some)[i - off]? := by rw [h]
  rw [List.getElem?_take_of_lt (by omega), List.getElem?_drop, show off + (i - off) = i by omega, List.getElem?_map] at e
  unfold getc at hg
  rw [List.getElem?_eq_getElem (show i - off < cs.length by omega)] at e ⊢
  rw [e] at hg
  simp only [Option.map_some] at hg
  injection hg with hg
  rw [hg]

theorem removeCLoopOwn_eq {off : Nat} {cs : Text} : ∀ (k : Nat) {m : Mem} {i o : Nat},
    (m.drop off).take cs.length = cs.map some → off ≤ m.length → o ≤ i → i + k ≤ off + cs.length →
    Str.removeCLoopOwn off cs.length k m i o = Str.removeCLoop cs k m i o
  | 0, _, _, _, _, _, _, _ => rfl
  | k + 1, m, i, o, hm, hl, ho, hi => by
    unfold Str.removeCLoopOwn Str.removeCLoop
    cases hg : getc m i with
    | exit w => rfl
    | ub => rfl
    | fuel => rfl
    | ok x =>
      simp only [bind_ok, ownIdx_eq hm hl]
      by_cases hx : x ∈ cs
      · have h1 : Str.inSet cs x = true := by simpa [Str.inSet] using hx
        simp only [if_pos hx, h1, Option.isSome_some, if_true]
        exact removeCLoopOwn_eq k hm hl (by omega) (by omega)
      · have h1 : Str.inSet cs x = false := by simpa [Str.inSet] using hx
        simp only [if_neg hx, h1, Option.isSome_none, Bool.false_eq_true, if_false]
        have hlt : i < off := by
          refine Nat.lt_of_not_le fun hle => hx ?_
          exact List.mem_of_getElem? (slot_mem hm hle (by omega) hg)
        cases hp : putc m (i - o) x with
        | exit w => rfl
        | ub => rfl
        | fuel => rfl
        | ok m' =>
          obtain ⟨p1, p2⟩ := putc_keeps (n := cs.length) hp (show i - o < off by omega)
          simp only [bind_ok]
          exact removeCLoopOwn_eq k (by rw [p1, hm]) (by omega) (by omega) (by omega)

theorem own_drop_take {v : Arr} {t : Text} (h : IsStr v t) {off : Nat} (ho : off ≤ t.length) :
    (v.mem.drop off).take (t.drop off).length = (t.drop off).map some := by
  rw [own_slice h (by simp; omega), List.take_of_length_le (Nat.le_refl _)]

/-- **C102** Removing the characters of the text that begins at position `off` of the string: as with a copy of that
text, although the characters are read while the string is rewritten. -/
theorem C102_remove_c_own (v : Arr) (t : Text) (h : IsStr v t) (off : Nat) (ho : off ≤ t.length) :
    ∃ v', Str.removeCOwn v off = .ok v' ∧ IsStr v' (t.filter (fun x => decide (x ∉ t.drop off))) ∧ v'.cap = v.cap := by
  have hz := own_text h ho
  obtain ⟨v', r, s, c⟩ := C22_remove_c h hz
  refine ⟨v', ?_, s, c⟩
  have hle := h.le
  have hsz := h.size
  rw [← r]
  unfold Str.removeCOwn Str.removeC
  rw [strlen_ok hz.text, hz.text, bind_ok, bind_ok,
    removeCLoopOwn_eq v.len (own_drop_take h ho) (by omega) (Nat.le_refl _) (by rw [h.len]; simp; omega)]

/-- **C102** (partial: as for `C26_strip_c_partial`, some character must be left).  Stripping the characters of the text
that begins at position `off` of the string. -/
theorem C102_strip_c_own_partial (v : Arr) (t : Text) (h : IsStr v t) (off : Nat) (ho : off < t.length)
    (hc : ∃ c ∈ t, c ∉ t.drop off) (k : Nat) (hk : t.length < k) :
    ∃ v' m, Str.stripCOwn k v off = .ok v' ∧ IsStr v' m ∧ IsStrip (fun x => decide (x ∈ t.drop off)) t m ∧ m ≠ [] ∧
      v'.cap = v.cap :=
  C26_strip_c_partial h (own_text h (Nat.le_of_lt ho)) (by simp; omega) hc hk

theorem replaceCOne_val {c r : Text} (hr : r ≠ []) (x : UInt8) (hx : x ∈ c) :
    Str.replaceCOne c r x =
      some (if c.idxOf x < r.length then r.getD (c.idxOf x) 0 else r.getD (r.length - 1) 0) := by
  have hrl : 0 < r.length := List.length_pos_iff.2 hr
  unfold Str.replaceCOne
  rw [if_pos (by simpa using hx)]
  dsimp only
  by_cases hj : c.idxOf x < r.length
  · rw [if_pos hj, if_pos hj, List.getD_eq_getElem?_getD, List.getElem?_eq_getElem hj]; rfl
  · rw [if_neg hj, if_neg hj, List.getD_eq_getElem?_getD, List.getElem?_eq_getElem (by omega)]; rfl

/-- The characters to be replaced are still to be read, or were replaced by characters that do not match. -/
theorem replaceCLoopOwn_eq {off : Nat} {cs rs : Text} (hr : rs ≠ []) (hnd : cs.Nodup) (hdis : ∀ x ∈ rs, x ∉ cs) :
    ∀ (k : Nat) {m : Mem} {i : Nat} {done : Text},
    (m.drop off).take cs.length = (done ++ cs.drop done.length).map some → done.length = i - off → off ≤ m.length →
    i + k = off + cs.length → (∀ x ∈ done, x ∈ rs) →
    Str.replaceCLoopOwn off cs.length rs k m i = Str.replaceCLoop cs rs k m i
  | 0, _, _, _, _, _, _, _, _ => rfl
  | k + 1, m, i, done, hm, hd, hl, hi, hin => by
    have hdl : done.length ≤ cs.length := by omega
    have hlen : (done ++ cs.drop done.length).length = cs.length := by simp; omega
    unfold Str.replaceCLoopOwn Str.replaceCLoop
    cases hg : getc m i with
    | exit w => rfl
    | ub => rfl
    | fuel => rfl
    | ok x =>
      have hidx := ownIdx_eq (m := m) (off := off) (x := x) (cs := done ++ cs.drop done.length) (by rw [hlen, hm]) hl
      rw [hlen] at hidx
      simp only [bind_ok, hidx]
      by_cases hlt : i < off
      · -- before the set: the set is untouched
        have hd0 : done = [] := by rw [← List.length_eq_zero_iff]; omega
        subst hd0
        simp only [List.nil_append, List.length_nil, List.drop_zero] at hm ⊢
        by_cases hx : x ∈ cs
        · rw [if_pos hx, replaceCOne_val hr x hx]
          dsimp only
          cases hp : putc m i (if cs.idxOf x < rs.length then rs.getD (cs.idxOf x) 0 else rs.getD (rs.length - 1) 0) with
          | exit w => rfl
          | ub => rfl
          | fuel => rfl
          | ok m' =>
            obtain ⟨p1, p2⟩ := putc_keeps (n := cs.length) hp hlt
            simp only [bind_ok]
            exact replaceCLoopOwn_eq hr hnd hdis k (done := []) (by simpa using by rw [p1, hm]) (by simp; omega)
              (by omega) (by omega) (by simp)
        · have h1 : Str.replaceCOne cs rs x = none := by
            unfold Str.replaceCOne; rw [if_neg (by simpa using hx)]
          rw [if_neg hx, h1]
          exact replaceCLoopOwn_eq hr hnd hdis k (done := []) (by simpa using hm) (by simp; omega) hl (by omega) (by simp)
      · -- inside the set: the character matches itself first
        have hge : off ≤ i := by omega
        have hil : i - off < cs.length := by omega
        have hxs := slot_mem (cs := done ++ cs.drop done.length) (by rw [hlen, hm]) hge (by omega) hg
        rw [List.getElem?_append_right (by omega), ← hd, Nat.sub_self, List.getElem?_drop, Nat.add_zero] at hxs
        obtain ⟨hj, hje⟩ := List.getElem?_eq_some_iff.1 hxs
        have hxc : x ∈ cs := List.mem_of_getElem? hxs
        have hnot : x ∉ done := fun hq => hdis x (hin x hq) hxc
        have hcd : cs.drop done.length = x :: cs.drop (done.length + 1) := by
          rw [List.drop_eq_getElem_cons hj, hje]
        have hi1 : (done ++ cs.drop done.length).idxOf x = done.length := by
          rw [List.idxOf_append, if_neg hnot, hcd]; simp
        have hi2 : cs.idxOf x = done.length := by
          rw [← hje]; exact hnd.idxOf_getElem done.length hj
        have hmem : x ∈ done ++ cs.drop done.length := by rw [hcd]; simp
        rw [if_pos hmem, replaceCOne_val hr x hxc, hi1, hi2]
        dsimp only
        have hlm : i < m.length := by
          refine Nat.lt_of_not_le fun hle => ?_
          unfold getc at hg
          rw [List.getElem?_eq_none hle] at hg; cases hg
        have hy : (if done.length < rs.length then rs.getD done.length 0 else rs.getD (rs.length - 1) 0) ∈ rs := by
          have hrl : 0 < rs.length := List.length_pos_iff.2 hr
          split
          · rw [List.getD_eq_getElem?_getD, List.getElem?_eq_getElem (by assumption)]; exact List.getElem_mem _
          · rw [List.getD_eq_getElem?_getD, List.getElem?_eq_getElem (by omega)]; exact List.getElem_mem _
        generalize (if done.length < rs.length then rs.getD done.length 0 else rs.getD (rs.length - 1) 0) = y at hy ⊢
        rw [putc_ok hlm, bind_ok, bind_ok]
        refine replaceCLoopOwn_eq hr hnd hdis k (done := done ++ [y]) ?_ (by simp; omega) (by simp; omega) (by omega) ?_
        · rw [List.drop_set, if_neg (by omega), ← hd, List.take_set, hm, hcd]
          rw [show (done ++ x :: cs.drop (done.length + 1)).map (some : UInt8 → Byte) =
              done.map some ++ some x :: (cs.drop (done.length + 1)).map some by simp]
          rw [set_at_length (by simp)]
          simp
        · intro z hz
          rcases List.mem_append.1 hz with q | q
          · exact hin z q
          · rw [List.mem_singleton.1 q]; exact hy

/-- **C102** (partial: the characters to be replaced are distinct, and none of their replacements is one of them).
Replacing the characters of the text that begins at position `off` of the string. -/
theorem C102_replace_c_own_partial (v : Arr) (t rs : Text) (h : IsStr v t) (off : Nat) (ho : off ≤ t.length) (r : Mem)
    (hr : CStr r rs) (hl : rs.length ≤ t.length - off) (h0 : rs ≠ []) (hnd : (t.drop off).Nodup)
    (hdis : ∀ x ∈ rs, x ∉ t.drop off) :
    ∃ v' t', Str.replaceCOwn v off r = .ok v' ∧ IsStr v' t' ∧ v'.cap = v.cap ∧
      List.Forall₂ (IsTranslated (t.drop off) rs) t t' := by
  have hz := own_text h ho
  have hlen : (t.drop off).length = t.length - off := by simp
  obtain ⟨v', t', e, s, c, f⟩ := C25_replace_c h hz hr (by rw [hlen]; exact hl) h0
  refine ⟨v', t', ?_, s, c, f⟩
  have hle := h.le
  have hsz := h.size
  rw [← e]
  unfold Str.replaceCOwn Str.replaceC
  rw [hr.text, bind_ok, bind_ok, strlen_ok hz.text, hz.text, bind_ok, bind_ok,
    replaceCLoopOwn_eq h0 hnd hdis v.len (done := []) (by simpa using own_drop_take h ho)
      (by simp) (by omega) (by rw [h.len]; simp; omega) (by simp)]

/-- **C102** (the defect) Exchanging the letters of `ab`, both named by the string itself: `bb` instead of `ba`. -/
theorem C102_replace_c_own_counterexample :
    (Str.replaceCOwn (strObj [97, 98] 0) 0 (zstr [98, 97])).mapOk Str.z = .ok (.ok [98, 98]) ∧
    (Str.replaceC (strObj [97, 98] 0) (zstr [97, 98]) (zstr [98, 97])).mapOk Str.z = .ok (.ok [98, 97]) := by
  decide +kernel

/-! ## Extracting from the string into itself -/

/-- **C102** (the defect) Extracting the text between two markers of a string into the same string is undefined whenever
there is such a text and memory is available. -/
theorem C102_split_between_own_ub (E : Env) (v : Arr) (t ls rs : Text) (h : IsStr v t) (off : Nat) (ho : off ≤ t.length)
    (zl zr : Mem) (hzl : CStr zl ls) (hzr : CStr zr rs) (l r : Nat) (hl : IsFirst (t.drop off) ls l)
    (hr : IsFirst (t.drop off) rs r) (hlr : l + ls.length < r) (ha : ∀ n, n ≤ t.length + 1 → E.allocOk n = true) :
    Str.splitBetweenOwn E v off zl zr = .ub := by
  have hz := own_text h ho
  have hle := h.le
  have hlim := h.lim
  have hrl := hr.1.le
  have hdl : (t.drop off).length = t.length - off := by simp
  obtain ⟨w, e, s, c, _⟩ := clear_ok h
  have e1 : wsub (r - l) ls.length = r - l - ls.length := wsub_eq (by omega) (by omega)
  have e2 : wadd (r - l - ls.length) 1 = r - l - ls.length + 1 := wadd_eq (by omega)
  have hal : E.allocOk (r - l - ls.length + 1) = true := ha _ (by omega)
  have hres : ∃ u, Str.resize E w (r - l - ls.length) = .ok u := by
    unfold Str.resize vtRealloc
    rw [decide_eq_true (by omega), dassert_true, bind_ok, s.view, Bool.not_false, enforce_true, bind_ok, s.es, e2,
      wmul_one (by omega), if_neg (by omega), decide_eq_true (by omega), cassert_true, bind_ok, if_pos hal, bind_ok,
      putc_ok (by simp [s.size]; omega), bind_ok]
    exact ⟨_, rfl⟩
  obtain ⟨u, hu⟩ := hres
  unfold Str.splitBetweenOwn
  rw [strstrAt_ok hz.text hzl.text (Nat.zero_le _), bind_ok, List.drop_zero, findSub_some.2 hl]
  simp only [Option.map_some, Nat.zero_add]
  rw [strstrAt_ok hz.text hzr.text (Nat.zero_le _), bind_ok, List.drop_zero, findSub_some.2 hr]
  simp only [Option.map_some, Nat.zero_add]
  rw [e, bind_ok, if_pos (by omega), strlen_ok hzl.text, bind_ok, e1, hu, bind_ok]

theorem clear_eq {v : Arr} {t : Text} (h : IsStr v t) :
    Str.clear v = .ok { v with mem := v.mem.set 0 (some 0), len := 0 } := by
  unfold Str.clear
  rw [putc_ok (by rw [h.size]; omega), bind_ok]

/-- Moving the own text from `off` to the front of the cleared string. -/
theorem cleared_appendNOwn {E : Env} {v : Arr} {t : Text} (h : IsStr v t) {off n : Nat} (h1 : 0 < off)
    (h2 : off + n ≤ t.length) (hn : 0 < n) :
    ∃ v', Str.appendNOwn E { v with mem := v.mem.set 0 (some 0), len := 0 } off n = .ok v' ∧
      IsStr v' ((t.drop off).take n) ∧ v'.cap = v.cap := by
  have hlim := h.lim
  have hle := h.le
  have hsz := h.size
  have hy : 0 ∉ (t.drop off).take n := fun hm => h.nz (List.mem_of_mem_drop (List.mem_of_mem_take hm))
  have hl : ((t.drop off).take n).length = n := by simp; omega
  have hb : Begins (((t.drop off).take n).map some) ((t.drop off).take n) := ⟨[], by simp⟩
  obtain ⟨w, c1, c2, _⟩ := clear_ok h
  rw [clear_eq h] at c1
  injection c1 with c1
  subst c1
  have hsp : ¬ hasSpace ({ v with mem := v.mem.set 0 (some 0), len := 0 } : Arr) < n := by
    rw [hasSpace_str c2]; show ¬ (v.cap - 0 < _); omega
  obtain ⟨m1, m2, p1, p2, p3⟩ := str_put_end c2 hy (by rw [hl]; show 0 + n ≤ v.cap; omega) hb
  simp only [List.length_nil, hl, Nat.zero_add, List.nil_append] at p1 p2 p3
  have key : vtMemmove (v.mem.set 0 (some 0)) 0 off n = .ok m1 := by
    rw [vtMemmove_as_copy (by simp; omega), ← p1, List.drop_set, if_pos h1, own_slice h h2]
  have hd1 : dassert E (decide (n > 0)) = .ok () := by rw [decide_eq_true hn]; exact dassert_true E
  have e2 : wadd 0 n = n := by rw [wadd_eq (by omega)]; omega
  refine ⟨_, ?_, p3, rfl⟩
  unfold Str.appendNOwn Str.grow
  simp only [hd1, if_neg hsp, bind_ok]
  simp only [h.es, bind_ok, wmul_one (show 0 < 2 ^ 64 by omega), wmul_one (show n < 2 ^ 64 by omega), key, e2, p2]

/-- **C102** The base name of a path inside a string may be stored in that string. -/
theorem C102_basename_own (E : Env) (v : Arr) (t a b : Text) (h : IsStr v t) (off : Nat) (ht : t.drop off = a ++ 47 :: b)
    (ha : a ≠ []) (hb : b ≠ []) (hn : 47 ∉ b) (k : Nat) (hk : t.length < k) :
    ∃ v', Path.basenameOwn E k v off = .ok v' ∧ IsStr v' b ∧ v'.cap = v.cap := by
  have hap := List.length_pos_iff.2 ha
  have hbp := List.length_pos_iff.2 hb
  have htl : t.length = off + (a.length + 1 + b.length) := by
    have := congrArg List.length ht
    simp at this; omega
  have ho : off ≤ t.length := by omega
  have hlim := h.lim
  have hle := h.le
  have hz := own_text h ho
  rw [ht] at hz
  have hzl : (a ++ 47 :: b).length = a.length + 1 + b.length := by simp; omega
  have hbl : Path.baseLoop (v.mem.drop off) (a.length + 1 + b.length) (a.length + 1 + b.length - 1) =
      .ok (some (a.length + 1)) := by
    have := baseLoop_hit hz rfl ha hb (fun q => hn (List.dropLast_subset _ q)) b.length (Nat.le_refl _)
    rw [hzl] at this
    rw [show a.length + 1 + b.length - 1 = a.length + b.length by omega]
    exact this
  have hdb : t.drop (off + (a.length + 1)) = b := by
    rw [← List.drop_drop, ht, List.drop_append]; simp
  obtain ⟨v', r, s, c⟩ := cleared_appendNOwn (E := E) h (off := off + (a.length + 1)) (n := b.length) (by omega) (by omega) hbp
  rw [hdb, List.take_length] at s
  refine ⟨v', ?_, s, c⟩
  have hsl : strlen ((v.mem.set 0 (some 0)).drop (off + (a.length + 1))) = .ok b.length := by
    rw [List.drop_set, if_pos (by omega)]
    have := own_text h (off := off + (a.length + 1)) (by omega)
    rw [hdb] at this
    exact strlen_ok this.text
  unfold Path.basenameOwn Str.createStatic
  simp only [strlen_ok hz.text, bind_ok]
  rw [canFind_view hz (by simp) rfl rfl (by omega), bind_ok, if_neg (positions_ne (by simp)), hzl,
    wsub_eq (by omega) (by omega), hbl, bind_ok, if_neg (by rw [h.len]; omega)]
  simp only [clear_eq h, bind_ok]
  unfold Str.appendOwn
  simp only [hsl, bind_ok, r]

/-- **C102** (the defect) A field popped into the string it is taken from is lost together with the rest: the string is
empty afterwards. -/
theorem C102_pop_first_self (E : Env) (v : Arr) (t ss : Text) (h : IsStr v t) (sep : Mem) (hs : CStr sep ss)
    (h0 : ss ≠ []) (i : Nat) (hi : IsFirst t ss i) (hi0 : 0 < i) :
    ∃ v', Str.popGetFirstSelf E v sep = .ok v' ∧ IsStr v' [] ∧ v'.cap = v.cap := by
  have hil := hi.1.le
  have hsl : 0 < ss.length := List.length_pos_iff.2 h0
  have hlim := h.lim
  have hle := h.le
  have hsz := h.size
  have hlen := h.len
  have e1 : wsub v.len (t.length - i) = i := by rw [hlen, wsub_eq (by omega) (by omega)]; omega
  have hd1 : dassert E (decide (i > 0)) = .ok () := by rw [decide_eq_true hi0]; exact dassert_true E
  have hsp : ¬ hasSpace ({ v with mem := v.mem.set 0 (some 0), len := 0 } : Arr) < i := by
    obtain ⟨w, c1, c2, _⟩ := clear_ok h
    rw [clear_eq h] at c1
    injection c1 with c1
    subst c1
    rw [hasSpace_str c2]; show ¬ (v.cap - 0 < _); omega
  -- the copy onto itself
  have hmv : vtMemmove (v.mem.set 0 (some 0)) 0 0 i = .ok (v.mem.set 0 (some 0)) := by
    have hl2 : (((v.mem.set 0 (some 0)).drop 0).take i).length = i := by simp; omega
    unfold vtMemmove memmove
    rw [if_neg (by omega), readN_ok (by simp; omega), bind_ok, writeN_ok (by rw [hl2]; simp; omega), hl2]
    simp
  have e2 : wadd 0 i = i := by rw [wadd_eq (by omega)]; omega
  have ha : Str.appendNOwn E { v with mem := v.mem.set 0 (some 0), len := 0 } 0 i =
      .ok { v with mem := (v.mem.set 0 (some 0)).set i (some 0), len := i } := by
    unfold Str.appendNOwn Str.grow
    simp only [hd1, if_neg hsp, bind_ok]
    simp only [h.es, bind_ok, wmul_one (show 0 < 2 ^ 64 by omega), wmul_one (show i < 2 ^ 64 by omega), hmv, e2, putc_ok (show i < (v.mem.set 0 (some 0)).length by simp; omega)]
  have e3 : wadd i ss.length = i + ss.length := wadd_eq (by omega)
  have e4 : wsub i 0 = i := by rw [wsub_eq (by omega) (by omega)]; omega
  have e5 : wsub i i = 0 := by rw [wsub_eq (by omega) (by omega)]; omega
  have hr : Str.remove E { v with mem := (v.mem.set 0 (some 0)).set i (some 0), len := i } 0 (i + ss.length) =
      .ok { v with mem := ((v.mem.set 0 (some 0)).set i (some 0)).set 0 (some 0), len := 0 } := by
    have hd2 : dassert E (decide (i + ss.length > 0)) = .ok () := by
      rw [decide_eq_true (by omega)]; exact dassert_true E
    have hd3 : dassert E (decide (0 < i)) = .ok () := by rw [decide_eq_true hi0]; exact dassert_true E
    unfold Str.remove
    simp only [hd2, hd3, bind_ok, e4, if_pos (show i + ss.length > i by omega), e2, e5, h.es,
      wmul_one (show 0 < 2 ^ 64 by omega)]
    unfold vtMemmove
    rw [if_pos rfl, bind_ok, putc_ok (by simp; omega), bind_ok]
  refine ⟨{ v with mem := ((v.mem.set 0 (some 0)).set i (some 0)).set 0 (some 0), len := 0 }, ?_, ?_, rfl⟩
  · unfold Str.popGetFirstSelf
    rw [strlen_ok hs.text, bind_ok, if_neg (by omega), strstrAt_ok h.text hs.text (Nat.zero_le _), bind_ok, List.drop_zero,
      findSub_some.2 hi]
    simp only [Option.map_some, Nat.zero_add]
    rw [strlenAt_ok h.text (by omega), bind_ok, e1]
    simp only [if_neg (show ¬ i = 0 by omega), if_neg (show ¬ v.len < i by omega), bind_ok, clear_eq h, ha, e3, hr]
  · obtain ⟨x, m', hm⟩ : ∃ x m', v.mem = x :: m' := by
      cases hv : v.mem with
      | nil => rw [hv] at hsz; simp at hsz
      | cons x m' => exact ⟨x, m', rfl⟩
    obtain ⟨j, rfl⟩ : ∃ j, i = j + 1 := ⟨i - 1, by omega⟩
    refine IsStr.mk' (rest := m'.set j (some 0)) h.es h.view ?_ (by simp) rfl ?_ h.lim
    · simp [hm]
    · rw [hm] at hsz; simp at hsz ⊢; omega

/-- **C102** (the defect) A last field popped into the string it is taken from: a failed assertion in debug builds, and a
write outside the block otherwise. -/
theorem C102_pop_last_self (E : Env) (v : Arr) (t ss : Text) (h : IsStr v t) (sep : Mem) (hs : CStr sep ss)
    (h0 : ss ≠ []) (l : Nat) (hl : (positions t ss).getLast? = some l) (hp : l + ss.length < t.length) (k : Nat)
    (hk : t.length < k) :
    Str.popGetLastSelf E k v sep = if E.debug then .exit .dbgAssert else .ub := by
  have hsl : 0 < ss.length := List.length_pos_iff.2 h0
  have hlim := h.lim
  have hle := h.le
  have hlen := h.len
  obtain ⟨i, hi⟩ : ∃ i, IsFirst t ss i := by
    obtain ⟨q1, _⟩ := positions_last h0 t.length t l (Nat.le_refl _) hl
    obtain ⟨i, hi, _⟩ := exists_first q1
    exact ⟨i, hi⟩
  obtain ⟨n, hn⟩ : ∃ n, n = t.length - l - ss.length := ⟨_, rfl⟩
  have e1 : wsub (t.length - l) ss.length = n := by rw [wsub_eq (by omega) (by omega), hn]
  obtain ⟨w, r, s, c⟩ := cleared_appendNOwn (E := E) h (off := l + ss.length) (n := n) (by omega) (by omega) (by omega)
  have hwl : w.len = n := by rw [s.len]; simp; omega
  have hwsz := s.size
  have e2 : wsub n n = 0 := by rw [wsub_eq (by omega) (by omega)]; omega
  have e3 : wsub 0 ss.length = 2 ^ 64 - ss.length := by unfold wsub; omega
  have e4 : wadd n ss.length = n + ss.length := wadd_eq (by omega)
  have e5 : wsub n (2 ^ 64 - ss.length) = n + ss.length := by unfold wsub; omega
  have e6 : wadd (2 ^ 64 - ss.length) (n + ss.length) = n := by unfold wadd; omega
  have e7 : wsub n (n + ss.length) = 2 ^ 64 - ss.length := by unfold wsub; omega
  have hrem : Str.remove E w (2 ^ 64 - ss.length) (n + ss.length) = if E.debug then .exit .dbgAssert else .ub := by
    have hd2 : dassert E (decide (n + ss.length > 0)) = .ok () := by
      rw [decide_eq_true (by omega)]; exact dassert_true E
    unfold Str.remove
    rw [hd2, bind_ok, hwl, decide_eq_false (by omega)]
    cases hD : E.debug with
    | true => rw [dassert_false hD]; rfl
    | false =>
      rw [dassert_release hD, bind_ok, e5, if_neg (by omega)]
      dsimp only
      rw [e6, e2, s.es, wmul_one (a := 0) (by omega), e7]
      unfold vtMemmove
      rw [if_pos rfl, bind_ok, putc_ub (by omega), bind_ub]
      rfl
  unfold Str.popGetLastSelf
  rw [strlen_ok hs.text, bind_ok, if_neg (by omega), strstrAt_ok h.text hs.text (Nat.zero_le _), bind_ok, List.drop_zero,
    findSub_some.2 hi]
  simp only [Option.map_some, Nat.zero_add]
  rw [lastInstance_first h.text hs.text h0 hi hk hl, bind_ok, strlenAt_ok h.text (by omega), bind_ok, e1]
  simp only [if_neg (show ¬ n = 0 by omega), if_neg (show ¬ v.len < n by omega), bind_ok, clear_eq h, r, hwl, e2, e3, e4,
    hrem]

/-- A string with text inside it that is passed to the calls above: `a,b,a` with the last `a`, `b,a`, and so on. -/
example : [(Str.removeFirstOwn (strObj [97, 44, 98, 44, 97] 3) 4).mapOk (fun r => Str.z r.1),
    (Str.removeCOwn (strObj [97, 44, 98, 44, 97] 3) 4).mapOk Str.z,
    (Str.removeCOwn (strObj [97, 44, 98, 44, 97] 3) 3).mapOk Str.z,
    (Str.stripCOwn 9 (strObj [97, 44, 98, 44, 97] 3) 3).mapOk Str.z,
    (Str.replaceFirstOwn exE (strObj [97, 44, 98, 44, 97] 3) 3 (zstr [120])).mapOk Str.z,
    (Str.replaceOwn exE 9 (strObj [97, 44, 98, 44, 97] 3) 3 (zstr [120])).mapOk Str.z,
    (Str.replaceOwn exE 9 (strObj [97, 44, 98] 0) 2 (zstr [120, 121])).mapOk Str.z,
    (Str.replaceCOwn (strObj [97, 44, 98, 44, 97] 3) 3 (zstr [120, 121])).mapOk Str.z,
    (Str.splitBetweenOwn exE (strObj [97, 44, 98, 44, 97] 3) 0 (zstr [97]) (zstr [98])).mapOk (fun _ => .ok []),
    (Str.popGetFirstSelf exE (strObj [97, 44, 98, 44, 97] 3) (zstr [44])).mapOk Str.z,
    (Str.popGetLastSelf exE 9 (strObj [97, 44, 98, 44, 97] 3) (zstr [44])).mapOk Str.z,
    (Path.basenameOwn exE 9 (strObj [97, 47, 98, 47, 97] 3) 1).mapOk Str.z]
    = [.ok (.ok [44, 98, 44, 97]), .ok (.ok [44, 98, 44]), .ok (.ok [98]), .ok (.ok [98]),
       .ok (.ok [97, 44, 98, 120]), .ok (.ok [97, 44, 98, 120]), .ub, .ok (.ok [121, 120, 98, 120, 121]), .ub,
       .ok (.ok []), .exit .dbgAssert, .ok (.ok [97])] := by
  decide +kernel

end Vita
