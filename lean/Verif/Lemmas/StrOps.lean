import Verif.Lemmas.Str
import Mathlib.Data.List.Forall2
/-! The looping string functions on well-formed strings. -/

namespace Vita
open Out Spec

seal wadd wsub wmul

/-- The call returns a value satisfying `P`, unless a request for at most `B` bytes of memory is refused. -/
def OkOr (E : Env) (B : Nat) (o : Out α) (P : α → Prop) : Prop :=
  (∃ a, o = .ok a ∧ P a) ∨ (o = .exit .alloc ∧ E.Refuses B)

theorem OkOr.bind {E : Env} {α β : Type} {B₀ B : Nat} {o : Out α} {P : α → Prop} {f : α → Out β} {Q : β → Prop}
    (h : OkOr E B₀ o P) (hf : ∀ a, P a → OkOr E B (f a) Q) (hB : B₀ ≤ B := by first | omega | (simp <;> omega) | decide) : OkOr E B (o >>= f) Q := by
  rcases h with ⟨a, rfl, ha⟩ | ⟨rfl, hn⟩
  · simpa using hf a ha
  · right; exact ⟨rfl, hn.le hB⟩

theorem OkOr.mono {E : Env} {B₀ B : Nat} {α : Type} {o : Out α} {P Q : α → Prop} (h : OkOr E B₀ o P) (hf : ∀ a, P a → Q a)
    (hB : B₀ ≤ B := by first | omega | (simp <;> omega) | decide) : OkOr E B o Q := by
  rcases h with ⟨a, rfl, ha⟩ | ⟨rfl, hn⟩
  · left; exact ⟨a, rfl, hf a ha⟩
  · right; exact ⟨rfl, hn.le hB⟩

theorem OkOr.le {E : Env} {B₀ B : Nat} {α : Type} {o : Out α} {P : α → Prop} (h : OkOr E B₀ o P)
    (hB : B₀ ≤ B := by first | omega | (simp <;> omega) | decide) : OkOr E B o P := h.mono (fun _ h => h) hB

theorem OkOr.ok {E : Env} {B : Nat} {α : Type} {a : α} {P : α → Prop} (h : P a) : OkOr E B (.ok a) P :=
  Or.inl ⟨a, rfl, h⟩

/-- `z` is a C string argument with the text `zs` (objects are smaller than the address space). -/
structure CStr (z : Mem) (zs : Text) : Prop where
  text : scanZ z = .ok zs
  lim : zs.length < 2 ^ 56

theorem CStr.nz {z : Mem} {zs : Text} (h : CStr z zs) : 0 ∉ zs := (scanZ_eq_ok.1 h.text).2
theorem CStr.begins {z : Mem} {zs : Text} (h : CStr z zs) : Begins z zs := begins_of_scanZ h.text

theorem IsStr.cstr {v : Arr} {t : Text} (h : IsStr v t) : CStr v.mem t :=
  ⟨h.text, by have := h.le; have := h.lim; omega⟩

theorem CStr.drop {z : Mem} {zs : Text} (h : CStr z zs) {i : Nat} (hi : i ≤ zs.length) :
    CStr (z.drop i) (zs.drop i) := ⟨scanZ_drop h.text hi, by have := h.lim; simp; omega⟩

theorem appendN_okOr {E : Env} {v : Arr} {t ys : Text} (h : IsStr v t) (hy : 0 ∉ ys) {z : Mem} (hz : Begins z ys)
    (hn : ys.length < 2 ^ 63) (h1 : 0 < ys.length) :
    OkOr E (t.length + ys.length + 1) (Str.appendN E v z ys.length) fun v' => IsStr v' (t ++ ys) ∧
      v'.cap = max v.cap (t.length + ys.length) ∧ v'.slider = v.slider := by
  by_cases hc : t.length + ys.length ≤ v.cap
  · exact Or.inl (appendN_ok h hy hz hn (Or.inl h1) (Or.inl hc))
  · cases ha : E.allocOk (t.length + ys.length + 1) with
    | true => exact Or.inl (appendN_ok h hy hz hn (Or.inl h1) (Or.inr ha))
    | false => exact Or.inr ⟨appendN_fail h hn h1 (by omega) ha, _, Nat.le_refl _, ha⟩

theorem append_eq {E : Env} {v : Arr} {zs : Text} {z : Mem} (hz : CStr z zs) :
    Str.append E v z = Str.appendN E v z zs.length := by
  simp [Str.append, strlen_ok hz.text]

theorem append_okOr {E : Env} {v : Arr} {t zs : Text} (h : IsStr v t) {z : Mem} (hz : CStr z zs) (h1 : zs ≠ []) :
    OkOr E (t.length + zs.length + 1) (Str.append E v z) fun v' => IsStr v' (t ++ zs) ∧
      v'.cap = max v.cap (t.length + zs.length) ∧ v'.slider = v.slider := by
  rw [append_eq hz]
  exact appendN_okOr h hz.nz hz.begins (by have := hz.lim; omega) (List.length_pos_iff.2 h1)

theorem insert_okOr {E : Env} {v : Arr} {t zs : Text} (h : IsStr v t) {z : Mem} (hz : CStr z zs)
    {i : Nat} (hi : i < t.length) :
    OkOr E (t.length + zs.length + 1) (Str.insert E v z i) fun v' => IsStr v' (t.take i ++ zs ++ t.drop i) ∧
      v'.cap = max v.cap (t.length + zs.length) ∧ v'.slider = v.slider := by
  have := hz.lim
  by_cases hc : t.length + zs.length ≤ v.cap
  · exact Or.inl (insert_ok h hz.text (by omega) (by omega) (Or.inl hi) (Or.inl hc))
  · cases ha : E.allocOk (t.length + zs.length + 1) with
    | true => exact Or.inl (insert_ok h hz.text (by omega) (by omega) (Or.inl hi) (Or.inr ha))
    | false => exact Or.inr ⟨insert_fail h hz.text (by omega) hi (by omega) ha, _, Nat.le_refl _, ha⟩

theorem createLen_okOr {E : Env} {n : Nat} (h1 : 0 < n) (hn : n < 2 ^ 63) :
    OkOr E (n + 56) (Str.createLen E n) fun v => IsStr v (List.replicate n 63) ∧ v.cap = n ∧ v.slider = 0 := by
  cases ha : E.allocOk arrStructSize with
  | false => exact Or.inr ⟨createLen_fail h1 hn (Or.inl ha), _, by simp [arrStructSize], ha⟩
  | true =>
    cases hb : E.allocOk (n + 1) with
    | false => exact Or.inr ⟨createLen_fail h1 hn (Or.inr hb), _, by omega, hb⟩
    | true => exact Or.inl (createLen_ok (Or.inl h1) hn ha hb)

/-! ## Searching -/

theorem removeFirst_none {v : Arr} {t zs : Text} (h : IsStr v t) {z : Mem} (hz : CStr z zs) (hn : ¬ Occurs t zs) :
    Str.removeFirst v z = .ok (v, false) := by
  simp [Str.removeFirst, strstrAt_ok h.text hz.text (Nat.zero_le _), findSub_none.2 hn]

theorem removeFirst_some {v : Arr} {t zs : Text} (h : IsStr v t) {z : Mem} (hz : CStr z zs) {i : Nat}
    (hi : IsFirst t zs i) :
    ∃ v', Str.removeFirst v z = .ok (v', true) ∧ IsStr v' (splice t i zs.length []) ∧ v'.cap = v.cap ∧
      v'.slider = v.slider := by
  have hle := h.le
  have hlim := h.lim
  have hil := hi.1.le
  obtain ⟨m1, m2, e1, e2, e3⟩ := str_close_gap h hil
  have w1 : wmul v.len v.elsize = t.length := by rw [h.len, h.es]; exact wmul_one (by omega)
  have w2 : wmul zs.length v.elsize = zs.length := by rw [h.es]; exact wmul_one (by omega)
  have w3 : wadd i zs.length = i + zs.length := wadd_eq (by omega)
  have w4 : wsub t.length (i + zs.length) = t.length - (i + zs.length) := wsub_eq (by omega) (by omega)
  have w5 : wmul (t.length - (i + zs.length)) v.elsize = t.length - (i + zs.length) := by
    rw [h.es]; exact wmul_one (by omega)
  have w6 : wsub v.len zs.length = t.length - zs.length := by rw [h.len]; exact wsub_eq (by omega) (by omega)
  refine ⟨{ v with mem := m2, len := t.length - zs.length }, ?_, ?_, rfl, rfl⟩
  · simp only [Str.removeFirst, strstrAt_ok h.text hz.text (Nat.zero_le _), List.drop_zero, findSub_some.2 hi,
      Option.map_some, bind_ok, Nat.zero_add, strlen_ok hz.text, w1, w2, w3, w4, w5, w6, e1, e2]
  · simpa [splice] using e3

theorem splice_length {t r : Text} {i n : Nat} (h : i + n ≤ t.length) :
    (splice t i n r).length = t.length - n + r.length := by
  simp [splice]; omega

theorem splice_occurs {t zs r : Text} {i : Nat} (h : OccursAt t zs i) :
    ∃ a b, t = a ++ zs ++ b ∧ splice t i zs.length r = a ++ r ++ b ∧ a.length = i := by
  obtain ⟨a, b, rfl, rfl⟩ := h
  exact ⟨a, b, rfl, by simp [splice, List.append_assoc], rfl⟩

theorem removeAll_ok {zs : Text} {z : Mem} (hz : CStr z zs) (h0 : zs ≠ []) :
    ∀ (fuel : Nat) {v : Arr} {t : Text}, IsStr v t → t.length < fuel →
    ∃ v' t', Str.removeAll fuel v z = .ok v' ∧ IsStr v' t' ∧ v'.cap = v.cap ∧ v'.slider = v.slider ∧
      Deletes zs t t' ∧ ¬ Occurs t' zs
  | 0, _, _, _, hf => by omega
  | k + 1, v, t, h, hf => by
    rcases exists_first_or_none t zs with ⟨i, hi, -⟩ | ⟨hn, -⟩
    · obtain ⟨v1, e1, s1, c1, sl1⟩ := removeFirst_some h hz hi
      have hl : 0 < zs.length := List.length_pos_iff.2 h0
      have hil := hi.1.le
      have hlen : (splice t i zs.length []).length < k := by
        rw [splice_length hil]; simp; omega
      obtain ⟨v2, t2, e2, s2, c2, sl2, d2, n2⟩ := removeAll_ok hz h0 k s1 hlen
      refine ⟨v2, t2, ?_, s2, by omega, by rw [sl2, sl1], ?_, n2⟩
      · simp [Str.removeAll, e1, e2]
      · exact Deletes.step hi d2
    · exact ⟨v, t, by simp [Str.removeAll, removeFirst_none h hz hn], h, rfl, rfl, Deletes.done t, hn⟩

/-! ## Replacing -/

theorem replaceAt_okOr {E : Env} {v : Arr} {t rs : Text} (h : IsStr v t) {rsub : Mem} (hr : CStr rsub rs)
    (hr0 : rs ≠ []) {i n : Nat} (hn : 0 < n) (hi : i + n ≤ t.length) :
    OkOr E (t.length - n + rs.length + 1) (Str.replaceAt E v i n rs.length rsub) fun v' => IsStr v' (splice t i n rs) ∧
      v'.cap = max v.cap (t.length - n + rs.length) ∧ v'.slider = v.slider := by
  have hle := h.le
  have hrl : 0 < rs.length := List.length_pos_iff.2 hr0
  unfold Str.replaceAt
  by_cases hc : n = rs.length
  · rw [if_pos hc]
    obtain ⟨m, e1, e2⟩ := str_overwrite h hr.nz hr.begins (i := i) (by omega)
    rw [e1, bind_ok]
    refine OkOr.ok ⟨?_, ?_, rfl⟩
    · rw [splice, hc]; exact e2
    · simp; omega
  · rw [if_neg hc]
    obtain ⟨v1, e1, s1, c1, sl1⟩ := remove_ok (E := E) h hn (by omega : i < t.length)
    rw [e1, bind_ok, s1.len]
    have hlen : (t.take i ++ t.drop (i + n)).length = t.length - n := by simp; omega
    have htake : (t.take i ++ t.drop (i + n)).take i = t.take i := by
      rw [List.take_append_of_le_length (by simp; omega), List.take_take]; simp
    have hdrop : (t.take i ++ t.drop (i + n)).drop i = t.drop (i + n) := by
      rw [List.drop_append_of_le_length (by simp; omega), List.drop_take]; simp
    by_cases hd : i < (t.take i ++ t.drop (i + n)).length
    · rw [if_pos hd]
      refine (insert_okOr s1 hr hd).mono ?_
      rintro v2 ⟨s2, c2, sl2⟩
      rw [htake, hdrop] at s2
      refine ⟨s2, ?_, by rw [sl2, sl1]⟩
      rw [c2, c1, hlen]
    · rw [if_neg hd]
      refine (append_okOr s1 hr hr0).mono ?_
      rintro v2 ⟨s2, c2, sl2⟩
      rw [hlen] at hd
      have he : t.drop (i + n) = [] := List.drop_of_length_le (by omega)
      refine ⟨?_, ?_, by rw [sl2, sl1]⟩
      · rw [splice]; rw [he] at s2 ⊢; simpa using s2
      · rw [c2, c1, hlen]

theorem replaceLoop_okOr {E : Env} {sub rsub : Mem} {ss rs : Text} (hs : CStr sub ss) (hr : CStr rsub rs)
    (hs0 : ss ≠ []) (hr0 : rs ≠ []) :
    ∀ (fuel : Nat) {v : Arr} {pre suf : Text}, IsStr v (pre ++ suf) → suf.length < fuel →
    OkOr E (pre.length + suf.length + (replaceAll suf ss rs).length + 1) (Str.replaceLoop E sub rsub ss.length rs.length fuel v pre.length) fun v' =>
      IsStr v' (pre ++ replaceAll suf ss rs) ∧ v.cap ≤ v'.cap ∧ v'.slider = v.slider
  | 0, _, _, _, _, hf => by omega
  | k + 1, v, pre, suf, h, hf => by
    have hsl : 0 < ss.length := List.length_pos_iff.2 hs0
    have hst : strstrAt v.mem pre.length sub = .ok ((findSub suf ss).map (pre.length + ·)) := by
      rw [strstrAt_ok h.text hs.text (by simp)]; simp
    rw [Str.replaceLoop, hst, bind_ok]
    rcases exists_first_or_none suf ss with ⟨i, hi, hf1⟩ | ⟨hn, hf1⟩
    · have hil := hi.1.le
      rw [hf1, Option.map_some]
      have hlen : (replaceAll suf ss rs).length = i + rs.length + (replaceAll (suf.drop (i + ss.length)) ss rs).length := by
        rw [replaceAll_first hs0 hi]; simp; omega
      refine OkOr.bind (replaceAt_okOr h hr hr0 (i := pre.length + i) hsl (by simp; omega)) ?_ (by simp; omega)
      rintro v1 ⟨s1, c1, sl1⟩
      have e : splice (pre ++ suf) (pre.length + i) ss.length rs =
          (pre ++ suf.take i ++ rs) ++ suf.drop (i + ss.length) := by
        rw [splice, List.take_append, List.drop_append]
        rw [show pre.length + i - pre.length = i by omega,
          show pre.length + i + ss.length - pre.length = i + ss.length by omega,
          List.take_of_length_le (by omega), List.drop_of_length_le (by omega)]
        simp
      rw [e] at s1
      have hp : pre.length + i + rs.length = (pre ++ suf.take i ++ rs).length := by simp; omega
      rw [hp]
      refine (replaceLoop_okOr hs hr hs0 hr0 k s1 (by simp; omega)).mono ?_ (by simp; omega)
      rintro v2 ⟨s2, c2, sl2⟩
      refine ⟨?_, by omega, by rw [sl2, sl1]⟩
      rw [replaceAll_first hs0 hi]
      simpa using s2
    · rw [hf1, Option.map_none]
      refine OkOr.ok ⟨?_, Nat.le_refl _, rfl⟩
      rw [replaceAll_none hn]; exact h

theorem replace_okOr {E : Env} {sub rsub : Mem} {ss rs t : Text} {v : Arr} (h : IsStr v t) (hs : CStr sub ss)
    (hr : CStr rsub rs) (hs0 : ss ≠ []) (hr0 : rs ≠ []) {fuel : Nat} (hf : t.length < fuel) :
    OkOr E (t.length + (replaceAll t ss rs).length + 1) (Str.replace E fuel v sub rsub) fun v' =>
      IsStr v' (replaceAll t ss rs) ∧ v.cap ≤ v'.cap ∧ v'.slider = v.slider := by
  have h1 : ¬ (ss.length = 0 ∨ rs.length = 0) := by
    have := List.length_pos_iff.2 hs0; have := List.length_pos_iff.2 hr0; omega
  simp only [Str.replace, strlen_ok hs.text, strlen_ok hr.text, bind_ok, if_neg h1]
  have := replaceLoop_okOr (E := E) hs hr hs0 hr0 fuel (v := v) (pre := []) (suf := t) h hf
  simpa using this

theorem find_ok {v : Arr} {t ss : Text} (h : IsStr v t) {sub : Mem} (hs : CStr sub ss) (hl : ss.length ≤ t.length) :
    Str.find v sub = .ok (findSub t ss) := by
  simp [Str.find, strlen_ok hs.text, h.len, hl, strstrAt_ok h.text hs.text (Nat.zero_le _)]

theorem find_long {v : Arr} {t ss : Text} (h : IsStr v t) {sub : Mem} (hs : CStr sub ss) (hl : t.length < ss.length) :
    Str.find v sub = .exit .enforce := by
  have : ¬ ss.length ≤ t.length := by omega
  simp [Str.find, strlen_ok hs.text, h.len, this]

/-! ## Character loops -/

theorem getc_mid (a c : Mem) (x : UInt8) {i : Nat} (h : i = a.length) : getc (a ++ some x :: c) i = .ok x := by
  subst h; simp [getc]

theorem removeCLoop_ok (c : Text) : ∀ (todo done : Text) (gap rest : Mem),
    ∃ gap' : Mem, Str.removeCLoop c todo.length (done.map some ++ gap ++ (todo.map some ++ rest))
        (done.length + gap.length) gap.length =
      .ok ((done ++ todo.filter (fun x => decide (x ∉ c))).map some ++ gap' ++ rest, gap'.length) ∧
      done.length + gap.length + todo.length = (done ++ todo.filter (fun x => decide (x ∉ c))).length + gap'.length
  | [], done, gap, rest => ⟨gap, by simp [Str.removeCLoop], by simp⟩
  | x :: todo, done, gap, rest => by
    have hg : getc (done.map some ++ gap ++ ((x :: todo).map some ++ rest)) (done.length + gap.length) = .ok x := by
      have := getc_mid (done.map some ++ gap) (todo.map some ++ rest) x (i := done.length + gap.length) (by simp)
      simpa using this
    simp only [List.length_cons, Str.removeCLoop, hg, bind_ok]
    by_cases hx : x ∈ c
    · have h1 : Str.inSet c x = true := by simpa [Str.inSet] using hx
      have h2 : (x :: todo).filter (fun x => decide (x ∉ c)) = todo.filter (fun x => decide (x ∉ c)) := by
        simp [hx]
      rw [if_pos h1, h2]
      obtain ⟨gap', e, hl⟩ := removeCLoop_ok c todo done (gap ++ [some x]) rest
      refine ⟨gap', ?_, by simp at hl ⊢; omega⟩
      rw [← e]
      congr 1
      · simp
      · simp; omega
      · simp
    · have h1 : ¬ Str.inSet c x = true := by simpa [Str.inSet] using hx
      have h2 : (x :: todo).filter (fun x => decide (x ∉ c)) = x :: todo.filter (fun x => decide (x ∉ c)) := by
        simp [hx]
      rw [if_neg h1, h2]
      -- split the gap
      obtain ⟨g, gap1, hgap⟩ : ∃ g gap1, gap ++ [some x] = g :: gap1 := by
        cases gap with
        | nil => exact ⟨_, _, rfl⟩
        | cons g gap1 => exact ⟨_, _, rfl⟩
      have hgl : gap1.length = gap.length := by
        have := congrArg List.length hgap; simp at this; omega
      have hp : putc (done.map some ++ gap ++ ((x :: todo).map some ++ rest))
          (done.length + gap.length - gap.length) x =
          .ok ((done ++ [x]).map some ++ gap1 ++ (todo.map some ++ rest)) := by
        have e : (done.map (some : UInt8 → Byte) ++ gap ++ ((x :: todo).map some ++ rest)) =
            done.map some ++ g :: (gap1 ++ (todo.map some ++ rest)) := by
          have : gap ++ ((x :: todo).map some ++ rest) = (gap ++ [some x]) ++ (todo.map some ++ rest) := by simp
          rw [List.append_assoc, this, hgap]; simp
        rw [e, putc_mid _ _ _ _ (by simp)]
        simp
      rw [hp, bind_ok]
      obtain ⟨gap', e, hl⟩ := removeCLoop_ok c todo (done ++ [x]) gap1 rest
      refine ⟨gap', ?_, by simp at hl ⊢; omega⟩
      rw [show (done ++ x :: todo.filter (fun x => decide (x ∉ c))) = ((done ++ [x]) ++ todo.filter (fun x => decide (x ∉ c))) by simp, ← e]
      congr 1
      · simp; omega
      · exact hgl.symm

theorem removeC_ok {v : Arr} {t cs : Text} (h : IsStr v t) {c : Mem} (hc : CStr c cs) :
    ∃ v', Str.removeC v c = .ok v' ∧ IsStr v' (t.filter (fun x => decide (x ∉ cs))) ∧ v'.cap = v.cap ∧
      v'.slider = v.slider := by
  obtain ⟨rest, hm, hr⟩ := h.split
  have hle := h.le
  have hlim := h.lim
  obtain ⟨gap, e, hl⟩ := removeCLoop_ok cs t [] [] (some 0 :: rest)
  simp only [List.map_nil, List.nil_append, List.length_nil, Nat.zero_add] at e hl
  rw [← hm, ← h.len] at e
  have w : wsub v.len gap.length = (t.filter (fun x => decide (x ∉ cs))).length := by
    rw [h.len, wsub_eq (by omega) (by omega)]; omega
  obtain ⟨x, r, hx⟩ : ∃ x r, gap ++ some 0 :: rest = x :: r := by
    cases gap with
    | nil => exact ⟨_, _, rfl⟩
    | cons g gap1 => exact ⟨_, _, rfl⟩
  have hrl : r.length = gap.length + rest.length := by
    have := congrArg List.length hx; simp at this; omega
  have hp : putc ((t.filter (fun x => decide (x ∉ cs))).map some ++ gap ++ some 0 :: rest)
      (t.filter (fun x => decide (x ∉ cs))).length 0 =
      .ok ((t.filter (fun x => decide (x ∉ cs))).map some ++ some 0 :: r) := by
    rw [List.append_assoc, hx]
    exact putc_mid _ _ _ _ (by simp)
  refine ⟨{ v with mem := (t.filter (fun x => decide (x ∉ cs))).map some ++ some 0 :: r,
                   len := (t.filter (fun x => decide (x ∉ cs))).length }, ?_, ?_, rfl, rfl⟩
  · simp only [Str.removeC, hc.text, bind_ok, e, w, hp]
  · refine IsStr.mk' (rest := r) h.es h.view rfl ?_ rfl ?_ h.lim
    · intro h'; exact h.nz (List.mem_filter.1 h').1
    · simp only; omega

/-- A loop that rewrites each character in turn. -/
theorem mapLoop_ok (f : UInt8 → Nat → UInt8) : ∀ (todo done : Text) (rest : Mem),
    Str.mapLoop f todo.length (done.map some ++ (todo.map some ++ rest)) done.length =
      .ok ((done ++ todo.mapIdx (fun i x => f x (done.length + i))).map some ++ rest)
  | [], done, rest => by simp [Str.mapLoop]
  | x :: todo, done, rest => by
    have hg : getc (done.map some ++ ((x :: todo).map some ++ rest)) done.length = .ok x := by
      have := getc_mid (done.map some) (todo.map some ++ rest) x (i := done.length) (by simp)
      simpa using this
    have hp : putc (done.map some ++ ((x :: todo).map some ++ rest)) done.length (f x done.length) =
        .ok ((done ++ [f x done.length]).map some ++ (todo.map some ++ rest)) := by
      have := putc_mid (done.map some) (todo.map some ++ rest) (some x) (f x done.length) (i := done.length) (by simp)
      simpa using this
    have ih := mapLoop_ok f todo (done ++ [f x done.length]) rest
    simp only [List.length_append, List.length_cons, List.length_nil] at ih
    simp only [List.length_cons, Str.mapLoop, hg, hp, bind_ok]
    rw [ih]
    simp [List.mapIdx_cons, Nat.add_assoc, Nat.add_comm 1]

theorem apply_ok {f : UInt8 → Nat → UInt8} {v : Arr} {t : Text} (h : IsStr v t)
    (hf : ∀ x i, x ≠ 0 → f x i ≠ 0) :
    ∃ v', Str.apply f v = .ok v' ∧ IsStr v' (t.mapIdx (fun i x => f x i)) ∧ v'.cap = v.cap ∧
      v'.slider = v.slider := by
  obtain ⟨rest, hm, hr⟩ := h.split
  have e := mapLoop_ok f t [] (some 0 :: rest)
  simp only [List.map_nil, List.nil_append, List.length_nil, Nat.zero_add] at e
  rw [← hm, ← h.len] at e
  refine ⟨{ v with mem := (t.mapIdx (fun i x => f x i)).map some ++ some 0 :: rest },
    by simp only [Str.apply, e, bind_ok], ?_, rfl, rfl⟩
  refine IsStr.mk' (rest := rest) h.es h.view rfl ?_ (by simp [h.len]) (by have := h.le; simp; omega) h.lim
  intro h'
  obtain ⟨i, hi, h2⟩ := List.mem_mapIdx.1 h'
  exact hf _ _ (fun h0 => h.nz (h0 ▸ List.getElem_mem hi)) h2

theorem replaceCOne_spec {c r : Text} (hr : r ≠ []) (x : UInt8) :
    ∃ y, Str.replaceCOne c r x = (if x ∈ c then some y else none) ∧ (x ∉ c → y = x) ∧ IsTranslated c r x y ∧
      (x ∈ c → y ∈ r) := by
  by_cases hx : x ∈ c
  · have h1 : c.contains x = true := by simpa using hx
    have hj := List.idxOf_lt_length_iff.2 hx
    have hrl : 0 < r.length := List.length_pos_iff.2 hr
    have hfirst : c[c.idxOf x]? = some x ∧ ∀ k, k < c.idxOf x → c[k]? ≠ some x := by
      refine ⟨by rw [List.getElem?_eq_getElem hj, List.getElem_idxOf hj], ?_⟩
      intro k hk hc
      have hk' : k < c.length := by omega
      rw [List.getElem?_eq_getElem hk', Option.some.injEq] at hc
      have := List.not_of_lt_findIdx (p := (· == x)) (xs := c) (i := k) (by simpa [List.idxOf] using hk)
      simp [hc] at this
    by_cases hjr : c.idxOf x < r.length
    · refine ⟨r[c.idxOf x], ?_, fun h => absurd hx h, Or.inr ⟨c.idxOf x, hfirst.1, hfirst.2, Or.inl ⟨hjr, by simp [hjr]⟩⟩, fun _ => List.getElem_mem hjr⟩
      simp [Str.replaceCOne, hx, hjr]
    · have e : r[r.length - 1]? = some (r[r.length - 1]'(by omega)) := List.getElem?_eq_getElem _
      refine ⟨r[r.length - 1]'(by omega), ?_, fun h => absurd hx h, Or.inr ⟨c.idxOf x, hfirst.1, hfirst.2, Or.inr ⟨by omega, ?_⟩⟩, fun _ => List.getElem_mem _⟩
      · simp only [Str.replaceCOne, h1, if_true, if_neg hjr, hx, e]
      · rw [List.getLast?_eq_getElem?, e]
  · have h1 : ¬ c.contains x = true := by simpa using hx
    refine ⟨x, ?_, fun _ => rfl, Or.inl ⟨hx, rfl⟩, fun h => absurd h hx⟩
    simp [Str.replaceCOne, hx]

theorem replaceCLoop_ok {c r : Text} (hr : r ≠ []) : ∀ (todo done : Text) (rest : Mem),
    ∃ new : Text, Str.replaceCLoop c r todo.length (done.map some ++ (todo.map some ++ rest)) done.length =
      .ok ((done ++ new).map some ++ rest) ∧ List.Forall₂ (IsTranslated c r) todo new ∧
      (∀ y ∈ new, y ∈ r ∨ y ∈ todo)
  | [], done, rest => ⟨[], by simp [Str.replaceCLoop], List.Forall₂.nil, by simp⟩
  | x :: todo, done, rest => by
    have hg : getc (done.map some ++ ((x :: todo).map some ++ rest)) done.length = .ok x := by
      have := getc_mid (done.map some) (todo.map some ++ rest) x (i := done.length) (by simp)
      simpa using this
    obtain ⟨y, e1, e2, e3, e4⟩ := replaceCOne_spec (c := c) hr x
    obtain ⟨new, i1, i2, i3⟩ := replaceCLoop_ok (c := c) hr todo (done ++ [y]) rest
    refine ⟨y :: new, ?_, List.Forall₂.cons e3 i2, ?_⟩
    · simp only [List.length_append, List.length_cons, List.length_nil] at i1
      by_cases hx : x ∈ c
      · have hp : putc (done.map some ++ ((x :: todo).map some ++ rest)) done.length y =
            .ok ((done ++ [y]).map some ++ (todo.map some ++ rest)) := by
          have := putc_mid (done.map some) (todo.map some ++ rest) (some x) y (i := done.length) (by simp)
          simpa using this
        simp only [List.length_cons, Str.replaceCLoop, hg, hp, bind_ok, e1, if_pos hx, i1]
        simp
      · have := e2 hx
        subst this
        simp only [List.length_cons, Str.replaceCLoop, hg, bind_ok, e1, if_neg hx]
        rw [show done.map (some : UInt8 → Byte) ++ ((y :: todo).map some ++ rest) = (done ++ [y]).map some ++ (todo.map some ++ rest) by simp]
        simp only [Nat.zero_add] at i1
        rw [i1]
        simp
    · intro w hw
      simp only [List.mem_cons] at hw ⊢
      rcases hw with rfl | hw
      · by_cases hx : x ∈ c
        · exact Or.inl (e4 hx)
        · exact Or.inr (Or.inl (e2 hx))
      · rcases i3 w hw with h | h
        · exact Or.inl h
        · exact Or.inr (Or.inr h)

theorem replaceC_ok {v : Arr} {t cs rs : Text} (h : IsStr v t) {c r : Mem} (hc : CStr c cs) (hr : CStr r rs)
    (hl : rs.length ≤ cs.length) :
    ∃ v' t', Str.replaceC v c r = .ok v' ∧ IsStr v' t' ∧ v'.cap = v.cap ∧ v'.slider = v.slider ∧
      (rs = [] → t' = t) ∧ (rs ≠ [] → List.Forall₂ (IsTranslated cs rs) t t') := by
  by_cases h0 : rs = []
  · subst h0
    exact ⟨v, t, by simp [Str.replaceC, hc.text, hr.text], h, rfl, rfl, fun _ => rfl, fun h => absurd rfl h⟩
  · have hrl : 0 < rs.length := List.length_pos_iff.2 h0
    obtain ⟨rest, hm, hrr⟩ := h.split
    obtain ⟨new, e, f, g⟩ := replaceCLoop_ok (c := cs) h0 t [] (some 0 :: rest)
    simp only [List.map_nil, List.nil_append, List.length_nil] at e
    rw [← hm, ← h.len] at e
    have hcond : ¬ (rs.length = 0 ∨ cs.length = 0) := by omega
    have hnl : new.length = t.length := f.length_eq.symm
    refine ⟨{ v with mem := new.map some ++ some 0 :: rest }, new, ?_, ?_, rfl, rfl, fun h => absurd h h0, fun _ => f⟩
    · simp only [Str.replaceC, hr.text, hc.text, bind_ok, hl, decide_true, enforce_true, if_neg hcond, e]
    · refine IsStr.mk' (rest := rest) h.es h.view rfl ?_ (by simp [h.len, hnl]) (by have := h.le; simp; omega) h.lim
      intro h'
      rcases g 0 h' with h' | h'
      · exact hr.nz h'
      · exact h.nz h'

end Vita
