import Verif.Lemmas.StrMore
/-! Lemmas on stripping, comparing, splitting and joining. -/

namespace Vita
open Out Spec

seal wadd wsub wmul

/-! ### Stripping -/

theorem getc_of {m : Mem} {t : Text} (h : scanZ m = .ok t) {i : Nat} {c : UInt8} (hc : t[i]? = some c) :
    getc m i = .ok c := by
  obtain ⟨hi, e⟩ := List.getElem?_eq_some_iff.1 hc
  rw [getc_text h hi, e]

theorem stripFront_ok {p : UInt8 → Bool} {m : Mem} {t u : Text} (h : scanZ m = .ok t) (hu : ∀ c, u.head? = some c → p c = false)
    (h0 : p 0 = false) :
    ∀ (a pre : Text) (k : Nat), t = pre ++ a ++ u → (∀ c ∈ a, p c = true) → a.length < k →
      Str.stripFront p m k pre.length = .ok (pre.length + a.length)
  | [], pre, 0, _, _, hk => by simp at hk
  | [], pre, k + 1, ht, _, _ => by
    rw [Str.stripFront]
    cases u with
    | nil =>
      have e : t.length = pre.length := by rw [ht]; simp
      rw [← e, getc_end h, bind_ok, h0]
      simp
    | cons c u =>
      rw [getc_of h (c := c) (by rw [ht]; simp), bind_ok, hu c rfl]
      simp
  | x :: a, pre, 0, _, _, hk => by simp at hk
  | x :: a, pre, k + 1, ht, ha, hk => by
    rw [Str.stripFront, getc_of h (c := x) (by rw [ht]; simp), bind_ok, if_pos (ha x (by simp))]
    have := stripFront_ok h hu h0 a (pre ++ [x]) k (by rw [ht]; simp) (fun c hc => ha c (by simp [hc])) (by simp at hk; omega)
    simp only [List.length_append, List.length_singleton] at this
    rw [this]
    simp; omega

theorem stripBack_ok {p : UInt8 → Bool} {m : Mem} {t a mid b : Text} (h : scanZ m = .ok t) (ht : t = a ++ mid ++ b)
    (hl : t.length < 2 ^ 63) (hb : ∀ c ∈ b, p c = true) (h0 : mid ≠ [])
    (hm : ∀ c, mid.getLast? = some c → p c = false) :
    ∀ (j k : Nat), j ≤ b.length → j < k →
      Str.stripBack p m a.length k (mid.length + j) = .ok mid.length
  | j, 0, _, hk => by omega
  | j, k + 1, hj, hk => by
    have hp : 0 < mid.length := List.length_pos_iff.2 h0
    have hlen : t.length = a.length + mid.length + b.length := by rw [ht]; simp; omega
    have w : wsub (wadd (mid.length + j) a.length) 1 = mid.length + j + a.length - 1 := by
      rw [wadd_eq (by omega), wsub_eq (by omega) (by omega)]
    rw [Str.stripBack, w]
    cases j with
    | zero =>
      have : t[mid.length + 0 + a.length - 1]? = mid.getLast? := by
        rw [ht, List.append_assoc, List.getElem?_append_right (by omega), List.getElem?_append_left (by omega),
          List.getLast?_eq_getElem?]
        congr 1; omega
      obtain ⟨c, hc⟩ : ∃ c, mid.getLast? = some c := by
        cases hg : mid.getLast? with
        | none => exact absurd (List.getLast?_eq_none_iff.1 hg) h0
        | some c => exact ⟨c, rfl⟩
      rw [getc_of h (this.trans hc), bind_ok, hm c hc]
      simp
    | succ j =>
      have hb' : j < b.length := by omega
      have : t[mid.length + (j + 1) + a.length - 1]? = some b[j] := by
        rw [ht, List.getElem?_append_right (by simp; omega)]
        simp only [List.length_append]
        rw [show mid.length + (j + 1) + a.length - 1 - (a.length + mid.length) = j by omega]
        exact List.getElem?_eq_getElem hb'
      rw [getc_of h this, bind_ok, if_pos (hb _ (List.getElem_mem hb'))]
      have w2 : wsub (mid.length + (j + 1)) 1 = mid.length + j := by rw [wsub_eq (by omega) (by omega)]; omega
      rw [w2]
      exact stripBack_ok h ht hl hb h0 hm j k (by omega) (by omega)

/-- Moving the middle part of the text to the front. -/
theorem str_keep_mid {v : Arr} {a mid b : Text} (h : IsStr v (a ++ mid ++ b)) :
    ∃ m1 m2, vtMemmove v.mem 0 a.length mid.length = .ok m1 ∧ putc m1 mid.length 0 = .ok m2 ∧
      IsStr { v with mem := m2, len := mid.length } mid := by
  obtain ⟨rest, hm, hr⟩ := h.split
  have hle := h.le
  have hnz := h.nz
  simp only [List.mem_append, not_or] at hnz
  have hmm : v.mem = a.map some ++ mid.map some ++ (b.map some ++ some 0 :: rest) := by rw [hm]; simp
  have hread : readN v.mem a.length mid.length = .ok (mid.map some) := by
    rw [hmm]; exact readN_mid _ _ _ (by simp) (by simp)
  have hsz := h.size
  have hw := writeN_ok (m := v.mem) (off := 0) (bs := mid.map some) (by rw [hmm]; simp; omega)
  obtain ⟨x, rest', hx⟩ : ∃ x rest', v.mem.drop mid.length = x :: rest' := by
    cases hd : v.mem.drop mid.length with
    | nil =>
      have := congrArg List.length hd
      simp [hsz] at this
      simp at hle
      omega
    | cons x r => exact ⟨x, r, rfl⟩
  have hrl : rest'.length + 1 = v.cap + 1 - mid.length := by
    have := congrArg List.length hx
    simp [hsz] at this
    omega
  refine ⟨mid.map some ++ x :: rest', mid.map some ++ some 0 :: rest', ?_, putc_mid _ _ _ _ (by simp), ?_⟩
  · rw [vtMemmove_eq hread ?_, hw]
    · simp [hx]
    · intro h0
      rw [hw]
      have : mid = [] := List.length_eq_zero_iff.1 h0
      subst this
      simp
  · refine IsStr.mk' (rest := rest') h.es h.view rfl hnz.1.2 rfl ?_ h.lim
    simp at hle
    simp only
    omega

theorem stripBy_ok {p : UInt8 → Bool} (h0 : p 0 = false) {v : Arr} {t mid : Text} (h : IsStr v t) (hs : IsStrip p t mid)
    (hm : mid ≠ []) {k : Nat} (hk : t.length < k) :
    ∃ v', Str.stripBy p k v = .ok v' ∧ IsStr v' mid ∧ v'.cap = v.cap := by
  obtain ⟨a, b, ht, ha, hb, h1, h2⟩ := hs
  have hle := h.le
  have hlim := h.lim
  have hlen : t.length = a.length + mid.length + b.length := by rw [ht]; simp; omega
  have e1 : Str.stripFront p v.mem k 0 = .ok a.length := by
    have := stripFront_ok (u := mid ++ b) h.text (p := p) ?_ h0 a [] k (by rw [ht]; simp) ha (by omega)
    · simpa using this
    · intro c hc
      cases mid with
      | nil => exact absurd rfl hm
      | cons x mid => exact h1 c (by simpa using hc)
  have e2 := stripBack_ok (p := p) h.text ht (by omega) hb hm h2 b.length k (Nat.le_refl _) (by omega)
  have w : wsub v.len a.length = mid.length + b.length := by rw [h.len, wsub_eq (by omega) (by omega)]; omega
  subst ht
  obtain ⟨m1, m2, f1, f2, f3⟩ := str_keep_mid h
  refine ⟨{ v with mem := m2, len := mid.length }, ?_, f3, rfl⟩
  simp only [Str.stripBy, e1, bind_ok, w, e2, f1, f2]

theorem stripBack_run_out {p : UInt8 → Bool} {m : Mem} {t : Text} (h : scanZ m = .ok t) (hm : m.length < 2 ^ 63)
    (ha : ∀ c ∈ t, p c = true) :
    ∀ (d j k : Nat), j + d = t.length → d < k →
      Str.stripBack p m t.length k ((2 ^ 64 - j) % 2 ^ 64) = .ub
  | d, j, 0, _, hk => by omega
  | 0, j, k + 1, hj, hk => by
    have hlt := scanZ_length h
    have w : wsub (wadd ((2 ^ 64 - j) % 2 ^ 64) t.length) 1 = 2 ^ 64 - 1 := by simp only [wsub, wadd]; omega
    rw [Str.stripBack, w]
    have : getc m (2 ^ 64 - 1) = .ub := by
      unfold getc
      rw [List.getElem?_eq_none (by omega)]
    rw [this, bind_ub]
  | d + 1, j, k + 1, hj, hk => by
    have hlt := scanZ_length h
    have w : wsub (wadd ((2 ^ 64 - j) % 2 ^ 64) t.length) 1 = d := by simp only [wsub, wadd]; omega
    rw [Str.stripBack, w, getc_text h (by omega), bind_ok, if_pos (ha _ (List.getElem_mem _))]
    have w2 : wsub ((2 ^ 64 - j) % 2 ^ 64) 1 = (2 ^ 64 - (j + 1)) % 2 ^ 64 := by simp only [wsub]; omega
    rw [w2]
    exact stripBack_run_out h hm ha d (j + 1) k (by omega) (by omega)

theorem stripBy_all {p : UInt8 → Bool} (h0 : p 0 = false) {v : Arr} {t : Text} (h : IsStr v t) (ha : ∀ c ∈ t, p c = true)
    {k : Nat} (hk : t.length < k) : Str.stripBy p k v = .ub := by
  have hlim := h.lim
  have hsz := h.size
  have hle := h.le
  have e1 : Str.stripFront p v.mem k 0 = .ok t.length := by
    have := stripFront_ok (u := []) h.text (p := p) (by simp) h0 t [] k (by simp) ha hk
    simpa using this
  have w : wsub v.len t.length = (2 ^ 64 - 0) % 2 ^ 64 := by rw [h.len, wsub_eq (Nat.le_refl _) (by omega)]; simp
  simp only [Str.stripBy, e1, bind_ok, w]
  rw [stripBack_run_out h.text (by omega) ha t.length 0 k (by omega) hk, bind_ub]

theorem stripCFor_true (x : UInt8) : ∀ cs, Str.stripCFor x cs true = if x ∈ cs then (true, false) else (false, true)
  | [] => by simp [Str.stripCFor]
  | y :: cs => by
    simp only [Str.stripCFor, stripCFor_true x cs, List.mem_cons]
    by_cases h : x = y <;> simp [h]

theorem stripCFor_spec {x : UInt8} {cs : Text} (h : cs ≠ []) :
    Str.stripCFor x cs false = if x ∈ cs then (true, false) else (false, true) := by
  cases cs with
  | nil => exact absurd rfl h
  | cons y cs =>
    simp only [Str.stripCFor, stripCFor_true x cs, List.mem_cons]
    by_cases h : x = y <;> simp [h]

theorem stripCFront_eq {cs : Text} (h : cs ≠ []) (m : Mem) : ∀ (k o : Nat),
    Str.stripCFront cs m k o = Str.stripFront (fun x => decide (x ∈ cs)) m k o
  | 0, _ => rfl
  | k + 1, o => by
    rw [Str.stripCFront, Str.stripFront]
    congr 1
    funext x
    rw [stripCFor_spec h, stripCFront_eq h m k]
    by_cases hx : x ∈ cs <;> simp [hx]

theorem stripCBack_eq {cs : Text} (h : cs ≠ []) (m : Mem) (off : Nat) : ∀ (k o : Nat),
    Str.stripCBack cs m off k o = Str.stripBack (fun x => decide (x ∈ cs)) m off k o
  | 0, _ => rfl
  | k + 1, o => by
    rw [Str.stripCBack, Str.stripBack]
    congr 1
    funext x
    rw [stripCFor_spec h, stripCBack_eq h m off k]
    by_cases hx : x ∈ cs <;> simp [hx]

theorem stripC_eq {cs : Text} {c : Mem} (hc : scanZ c = .ok cs) (h : cs ≠ []) (k : Nat) (s : Arr) :
    Str.stripC k s c = Str.stripBy (fun x => decide (x ∈ cs)) k s := by
  simp only [Str.stripC, hc, bind_ok, Str.stripBy, stripCFront_eq h, stripCBack_eq h]

theorem exists_strip (p : UInt8 → Bool) {t : Text} (h : ∃ c ∈ t, p c = false) : ∃ mid, mid ≠ [] ∧ IsStrip p t mid := by
  have front : ∀ t : Text, (∃ c ∈ t, p c = false) → ∃ a c u, t = a ++ c :: u ∧ (∀ x ∈ a, p x = true) ∧ p c = false := by
    intro t
    induction t with
    | nil => rintro ⟨c, h, -⟩; cases h
    | cons x t ih =>
      intro h
      cases hx : p x with
      | false => exact ⟨[], x, t, rfl, by simp, hx⟩
      | true =>
        obtain ⟨c, hc, hp⟩ := h
        have : ∃ c ∈ t, p c = false := by
          rcases List.mem_cons.1 hc with rfl | hc
          · rw [hx] at hp; cases hp
          · exact ⟨c, hc, hp⟩
        obtain ⟨a, c, u, e, h1, h2⟩ := ih this
        exact ⟨x :: a, c, u, by simp [e], by simpa [hx] using h1, h2⟩
  obtain ⟨a, c, u, e, h1, h2⟩ := front t h
  obtain ⟨b, d, w, e', h1', h2'⟩ := front (c :: u).reverse ⟨c, by simp, h2⟩
  have e'' : c :: u = w.reverse ++ d :: b.reverse := by
    have := congrArg List.reverse e'
    simpa using this
  refine ⟨w.reverse ++ [d], by simp, a, b.reverse, by rw [e, e'']; simp, h1, by simpa using h1', ?_, ?_⟩
  · intro x hx
    have hh : (c :: u).head? = some x := by
      rw [e'', show w.reverse ++ d :: b.reverse = (w.reverse ++ [d]) ++ b.reverse by simp, List.head?_append, hx]
      rfl
    simp at hh
    rw [← hh]; exact h2
  · intro x hx
    simp at hx
    rw [← hx]; exact h2'

/-- Cutting the same text in two ways. -/
theorem append_cut {a b c d : Text} (h : a ++ b = c ++ d) :
    (∃ e, c = a ++ e ∧ b = e ++ d) ∨ (∃ e, a = c ++ e ∧ d = e ++ b) := by
  rcases List.append_eq_append_iff.1 h with ⟨e, h1, h2⟩ | ⟨e, h1, h2⟩
  · exact Or.inl ⟨e, h1, h2⟩
  · exact Or.inr ⟨e, h1, h2⟩

theorem strip_unique_aux {p : UInt8 → Bool} {a m a' m' : Text} (h : a ++ m = a' ++ m') (ha : ∀ c ∈ a, p c = true)
    (ha' : ∀ c ∈ a', p c = true) (h0 : m ≠ []) (h0' : m' ≠ []) (hm : ∀ c, m.head? = some c → p c = false)
    (hm' : ∀ c, m'.head? = some c → p c = false) : a = a' := by
  rcases append_cut h with ⟨e, h1, h2⟩ | ⟨e, h1, h2⟩
  · cases e with
    | nil => simpa using h1.symm
    | cons x e =>
      have := hm x (by rw [h2]; rfl)
      rw [ha' x (by rw [h1]; simp)] at this
      cases this
  · cases e with
    | nil => simpa using h1
    | cons x e =>
      have := hm' x (by rw [h2]; rfl)
      rw [ha x (by rw [h1]; simp)] at this
      cases this

theorem strip_unique {p : UInt8 → Bool} {t m m' : Text} (h : IsStrip p t m) (h' : IsStrip p t m') (h0 : m ≠ [])
    (h0' : m' ≠ []) : m = m' := by
  obtain ⟨a, b, e, h1, h2, h3, h4⟩ := h
  obtain ⟨a', b', e', h1', h2', h3', h4'⟩ := h'
  have ea : a = a' := by
    refine strip_unique_aux (m := m ++ b) (m' := m' ++ b') (by rw [← List.append_assoc, ← e, e', List.append_assoc]) h1 h1'
      (by simp [h0]) (by simp [h0']) ?_ ?_
    · intro c hc
      cases m with
      | nil => exact absurd rfl h0
      | cons x m => exact h3 c (by simpa using hc)
    · intro c hc
      cases m' with
      | nil => exact absurd rfl h0'
      | cons x m => exact h3' c (by simpa using hc)
  have eb : b.reverse = b'.reverse := by
    have er : b.reverse ++ (a ++ m).reverse = b'.reverse ++ (a' ++ m').reverse := by
      rw [← List.reverse_append, ← List.reverse_append, ← e, e']
    refine strip_unique_aux er (by simpa using h2) (by simpa using h2') (by simp [h0]) (by simp [h0']) ?_ ?_
    · intro c hc
      refine h4 c ?_
      rw [List.head?_reverse, List.getLast?_append] at hc
      cases hg : m.getLast? with
      | none => exact absurd (List.getLast?_eq_none_iff.1 hg) h0
      | some y => rw [hg] at hc; simpa using hc
    · intro c hc
      refine h4' c ?_
      rw [List.head?_reverse, List.getLast?_append] at hc
      cases hg : m'.getLast? with
      | none => exact absurd (List.getLast?_eq_none_iff.1 hg) h0'
      | some y => rw [hg] at hc; simpa using hc
  have eb' : b = b' := List.reverse_injective eb
  subst ea eb'
  rw [e] at e'
  simpa using e'

/-! ### Comparing and searching characters -/

theorem scanZ_cons {m : Mem} {c : UInt8} {t : Text} (h : scanZ m = .ok (c :: t)) :
    ∃ m', m = some c :: m' ∧ scanZ m' = .ok t ∧ c ≠ 0 := by
  obtain ⟨⟨rest, e⟩, h0⟩ := scanZ_eq_ok.1 h
  simp only [List.mem_cons, not_or] at h0
  refine ⟨t.map some ++ some 0 :: rest, by rw [e]; rfl, scanZ_eq_ok.2 ⟨⟨rest, rfl⟩, h0.2⟩, fun hc => h0.1 hc.symm⟩

theorem scanZ_nil {m : Mem} (h : scanZ m = .ok []) : ∃ m', m = some 0 :: m' := by
  obtain ⟨⟨rest, e⟩, h0⟩ := scanZ_eq_ok.1 h
  exact ⟨rest, by rw [e]; rfl⟩

theorem strncmpEq_ok : ∀ (n : Nat) {m1 m2 : Mem} {a b : Text}, scanZ m1 = .ok a → scanZ m2 = .ok b →
    strncmpEq n m1 m2 = .ok (decide (a.take n = b.take n))
  | 0, _, _, _, _, _, _ => by simp [strncmpEq]
  | n + 1, m1, m2, [], [], h1, h2 => by
    obtain ⟨m1', rfl⟩ := scanZ_nil h1
    obtain ⟨m2', rfl⟩ := scanZ_nil h2
    simp [strncmpEq]
  | n + 1, m1, m2, [], y :: b, h1, h2 => by
    obtain ⟨m1', rfl⟩ := scanZ_nil h1
    obtain ⟨m2', rfl, -, h⟩ := scanZ_cons h2
    simp [strncmpEq, Ne.symm h]
  | n + 1, m1, m2, x :: a, [], h1, h2 => by
    obtain ⟨m1', rfl, -, h⟩ := scanZ_cons h1
    obtain ⟨m2', rfl⟩ := scanZ_nil h2
    simp [strncmpEq, h]
  | n + 1, m1, m2, x :: a, y :: b, h1, h2 => by
    obtain ⟨m1', rfl, e1, h⟩ := scanZ_cons h1
    obtain ⟨m2', rfl, e2, h'⟩ := scanZ_cons h2
    have ih := strncmpEq_ok n e1 e2
    by_cases hxy : x = y
    · subst hxy
      simp [strncmpEq, h, ih]
    · simp [strncmpEq, hxy]

theorem strchr_ok (c : UInt8) (hc : c ≠ 0) : ∀ {m : Mem} {t : Text}, scanZ m = .ok t →
    strchr m c = .ok (if c ∈ t then some (t.idxOf c) else none)
  | m, [], h => by
    obtain ⟨m', rfl⟩ := scanZ_nil h
    simp [strchr, Ne.symm hc]
  | m, x :: t, h => by
    obtain ⟨m', rfl, e, hx⟩ := scanZ_cons h
    have ih := strchr_ok c hc e
    by_cases hxc : x = c
    · subst hxc
      simp [strchr]
    · have : ¬ c = x := fun h => hxc h.symm
      simp only [strchr, hxc, if_false, hx, ih, bind_ok, List.mem_cons, this, false_or]
      by_cases hm : c ∈ t
      · simp [hm, List.idxOf_cons, hxc]
      · simp [hm]

theorem numericLoop_ok {m : Mem} {t : Text} (h : scanZ m = .ok t) : ∀ (k i : Nat), i + k ≤ t.length →
    Str.numericLoop m k i = .ok (((t.drop i).take k).all fun x => isdigit x || x == 46)
  | 0, i, _ => by simp [Str.numericLoop]
  | k + 1, i, hi => by
    have hi' : i < t.length := by omega
    rw [Str.numericLoop, getc_text h hi', bind_ok, List.drop_eq_getElem_cons hi', List.take_succ_cons, List.all_cons,
      numericLoop_ok h k (i + 1) (by omega)]
    by_cases h1 : isdigit t[i] = true
    · simp [h1]
    · simp only [Bool.not_eq_true] at h1
      by_cases h2 : t[i] = 46 <;> simp [h1, h2]

end Vita
