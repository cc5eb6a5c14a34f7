import Verif.Lemmas.OwnerLib
import Verif.Lemmas.Text
/-!
# Lemmas for C88: how the library functions end, and what they leave
-/

namespace Vita
open Out Mal Own

seal wadd wsub wmul

/-! ### Lemmas -/

section
variable {c₀ c : Contents} {p sl : Nat} {old T hs : List Nat} {L : List Arr}

theorem getElem?_lt {l : List α} {i : Nat} {x : α} (h : l[i]? = some x) : i < l.length := (List.getElem?_eq_some_iff.1 h).1

theorem Lists.lt (h : Lists tr c₀ p sl old T c hs L) : p < c.length := by
  obtain ⟨a, cap, h1, -⟩ := h.list
  exact getElem?_lt h1

theorem Lists.item (h : Lists tr c₀ p sl old T c hs L) {i : Nat} {t : Arr} (hi : L[i]? = some t) :
    ∃ x, hs[i]? = some x ∧ c[x]? = some (some (.str tr, t)) := by
  have e := congrArg (·[i]?) h.items
  simp only [List.getElem?_map, hi, Option.map_some] at e
  cases hx : hs[i]? with
  | none => rw [hx] at e; cases e
  | some x =>
    rw [hx] at e
    simp only [Option.map_some] at e
    injection e with e
    exact ⟨x, rfl, e⟩

theorem Lists.length_eq (h : Lists tr c₀ p sl old T c hs L) : hs.length = L.length := by
  simpa using congrArg List.length h.items

theorem Lists.item_lt (h : Lists tr c₀ p sl old T c hs L) {x : Nat} (hx : x ∈ hs) : x < c.length := by
  have : c[x]? ∈ hs.map (c[·]?) := List.mem_map.2 ⟨x, hx, rfl⟩
  rw [h.items] at this
  obtain ⟨t, -, e⟩ := List.mem_map.1 this
  exact getElem?_lt e.symm

/-- A new list. -/
theorem Lists.start {a : Arr} {cap : Nat} (ha : PlHolds a ⟨[], cap⟩) :
    Lists tr c c.length a.slider [] [] (c ++ [some (.plist tr, a)]) [] [] where
  len := by simp
  frame := by intro i hi _ _; rw [List.getElem?_append_left hi]
  list := ⟨a, cap, by simp, ha, rfl⟩
  items := rfl
  fresh := by simp
  nodup := List.nodup_nil
  rest := by intro i h1 h2 _ _ h3; simp at h3; omega

/-- A list that was there. -/
theorem Lists.start_old {a : Arr} {cap : Nat} (hp : c[p]? = some (some (.plist tr, a))) (ha : PlHolds a ⟨old.map ptrOf, cap⟩) :
    Lists tr c p a.slider old [] c [] [] where
  len := Nat.le_refl _
  frame := by intro i _ _ _; rfl
  list := ⟨a, cap, hp, by simpa using ha, rfl⟩
  items := rfl
  fresh := by simp
  nodup := List.nodup_nil
  rest := by intro i h1 h2 _ _ h3; omega

/-- The list is replaced. -/
theorem Lists.relist (h : Lists tr c₀ p sl old T c hs L) {a : Arr} {cap : Nat} {old' : List Nat} (ha : PlHolds a ⟨(old' ++ hs).map ptrOf, cap⟩) :
    Lists tr c₀ p a.slider old' T (c.set p (some (.plist tr, a))) hs L where
  len := by simpa using h.len
  frame := by intro i h1 h2 h3; rw [List.getElem?_set_ne (Ne.symm h2)]; exact h.frame i h1 h2 h3
  list := ⟨a, cap, by rw [List.getElem?_set_self h.lt], ha, rfl⟩
  items := by
    rw [← h.items]
    apply List.map_congr_left
    intro x hx
    rw [List.getElem?_set_ne (Ne.symm (h.fresh x hx).2.1)]
  fresh := h.fresh
  nodup := h.nodup
  rest := by
    intro i h1 h2 h3 h4 h5
    rw [List.getElem?_set_ne (Ne.symm h2)]
    exact h.rest i h1 h2 h3 h4 (by simpa using h5)

/-- A container that nothing is said about changes. -/
theorem Lists.setT (h : Lists tr c₀ p sl old T c hs L) {t : Nat} (ht : t ∈ T) (hp : t ≠ p) (x : Option (Tag × Arr)) :
    Lists tr c₀ p sl old T (c.set t x) hs L where
  len := by simpa using h.len
  frame := by
    intro i h1 h2 h3
    have : t ≠ i := fun e => h3 (e ▸ ht)
    rw [List.getElem?_set_ne this]; exact h.frame i h1 h2 h3
  list := by
    obtain ⟨a, cap, h1, h2⟩ := h.list
    exact ⟨a, cap, by rw [List.getElem?_set_ne hp]; exact h1, h2⟩
  items := by
    rw [← h.items]
    apply List.map_congr_left
    intro y hy
    have : t ≠ y := fun e => (h.fresh y hy).2.2.1 (e ▸ ht)
    rw [List.getElem?_set_ne this]
  fresh := h.fresh
  nodup := h.nodup
  rest := by
    intro i h1 h2 h3 h4 h5
    have : t ≠ i := fun e => h3 (e ▸ ht)
    rw [List.getElem?_set_ne this]
    exact h.rest i h1 h2 h3 h4 (by simpa using h5)

/-- A new temporary container. -/
theorem Lists.temp (h : Lists tr c₀ p sl old T c hs L) (x : Option (Tag × Arr)) : Lists tr c₀ p sl old (c.length :: T) (c ++ [x]) hs L where
  len := by have := h.len; simp; omega
  frame := by
    intro i h1 h2 h3
    simp only [List.mem_cons, not_or] at h3
    have := h.len
    rw [List.getElem?_append_left (by omega)]; exact h.frame i h1 h2 h3.2
  list := by
    obtain ⟨a, cap, h1, h2⟩ := h.list
    exact ⟨a, cap, by rw [List.getElem?_append_left (getElem?_lt h1)]; exact h1, h2⟩
  items := by
    rw [← h.items]
    apply List.map_congr_left
    intro y hy
    rw [List.getElem?_append_left (h.item_lt hy)]
  fresh := by
    intro y hy
    obtain ⟨h1, h2, h3, h4⟩ := h.fresh y hy
    refine ⟨h1, h2, ?_, h4⟩
    simp only [List.mem_cons, not_or]
    exact ⟨by have := h.item_lt hy; omega, h3⟩
  nodup := h.nodup
  rest := by
    intro i h1 h2 h3 h4 h5
    simp only [List.mem_cons, not_or] at h3
    simp at h5
    have hi : i < c.length := by omega
    rw [List.getElem?_append_left hi]
    exact h.rest i h1 h2 h3.2 h4 hi

/-- The temporary container is gone. -/
theorem Lists.untemp {t : Nat} (h : Lists tr c₀ p sl old (t :: T) c hs L) (ht : c₀.length ≤ t) (hd : c[t]? = some none) :
    Lists tr c₀ p sl old T c hs L where
  len := h.len
  frame := by
    intro i h1 h2 h3
    exact h.frame i h1 h2 (by simp only [List.mem_cons, not_or]; exact ⟨by omega, h3⟩)
  list := h.list
  items := h.items
  fresh := by
    intro y hy
    obtain ⟨h1, h2, h3, h4⟩ := h.fresh y hy
    simp only [List.mem_cons, not_or] at h3
    exact ⟨h1, h2, h3.2, h4⟩
  nodup := h.nodup
  rest := by
    intro i h1 h2 h3 h4 h5
    by_cases e : i = t
    · rw [e]; exact hd
    · exact h.rest i h1 h2 (by simp only [List.mem_cons, not_or]; exact ⟨e, h3⟩) h4 h5

/-- A new string is added. -/
theorem Lists.add (h : Lists tr c₀ p sl old T c hs L) (hT : ∀ t ∈ T, t < c.length) (hn : c.length + 1 < 2 ^ 64) {t a : Arr} {cap : Nat}
    (ha : PlHolds a ⟨(old ++ hs).map ptrOf ++ [ptrOf c.length], cap⟩) (hs' : a.slider = sl) :
    Lists tr c₀ p sl old T ((c ++ [some (Tag.str tr, t)]).set p (some (.plist tr, a))) (hs ++ [c.length]) (L ++ [t]) where
  len := by have := h.len; simp; omega
  frame := by
    intro i h1 h2 h3
    have := h.len
    rw [List.getElem?_set_ne (Ne.symm h2), List.getElem?_append_left (by omega)]
    exact h.frame i h1 h2 h3
  list := ⟨a, cap, by rw [List.getElem?_set_self (by have := h.lt; simp; omega)], by simpa using ha, hs'⟩
  items := by
    have hp := h.lt
    rw [List.map_append, List.map_append, ← h.items]
    congr 1
    · apply List.map_congr_left
      intro y hy
      rw [List.getElem?_set_ne (Ne.symm (h.fresh y hy).2.1), List.getElem?_append_left (h.item_lt hy)]
    · simp only [List.map_cons, List.map_nil]
      rw [List.getElem?_set_ne (by omega)]
      simp
  fresh := by
    intro y hy
    rcases List.mem_append.1 hy with hy | hy
    · exact h.fresh y hy
    · simp at hy; subst hy
      have := h.lt
      exact ⟨h.len, by omega, fun ht => absurd (hT _ ht) (by omega), hn⟩
  nodup := by
    rw [List.nodup_append]
    refine ⟨h.nodup, by simp, ?_⟩
    intro y hy z hz
    simp at hz; subst hz
    have := h.item_lt hy
    omega
  rest := by
    intro i h1 h2 h3 h4 h5
    simp only [List.mem_append, List.mem_singleton, not_or] at h4
    simp at h5
    have hi : i < c.length := by omega
    rw [List.getElem?_set_ne (Ne.symm h2), List.getElem?_append_left hi]
    exact h.rest i h1 h2 h3 h4.1 hi

/-- Strings added to a list, then more strings added. -/
theorem Lists.trans (h : Lists tr c₀ p sl old T c hs L) {c' : Contents} {hs' : List Nat} {L' : List Arr} (hT : ∀ t ∈ T, t < c.length)
    (h' : Lists tr c p sl (old ++ hs) [] c' hs' L') : Lists tr c₀ p sl old T c' (hs ++ hs') (L ++ L') where
  len := Nat.le_trans h.len h'.len
  frame := by
    intro i h1 h2 h3
    have := h.len
    rw [h'.frame i (by omega) h2 (by simp)]; exact h.frame i h1 h2 h3
  list := by simpa using h'.list
  items := by
    rw [List.map_append, List.map_append, ← h'.items, ← h.items]
    congr 1
    apply List.map_congr_left
    intro y hy
    exact h'.frame y (h.item_lt hy) (h.fresh y hy).2.1 (by simp)
  fresh := by
    intro y hy
    rcases List.mem_append.1 hy with hy | hy
    · exact h.fresh y hy
    · obtain ⟨h1, h2, h3, h4⟩ := h'.fresh y hy
      exact ⟨Nat.le_trans h.len h1, h2, fun ht => absurd (hT _ ht) (by omega), h4⟩
  nodup := by
    rw [List.nodup_append]
    refine ⟨h.nodup, h'.nodup, ?_⟩
    intro y hy z hz
    have := h.item_lt hy
    have := (h'.fresh z hz).1
    omega
  rest := by
    intro i h1 h2 h3 h4 h5
    simp only [List.mem_append, not_or] at h4
    by_cases hi : i < c.length
    · rw [h'.frame i hi h2 (by simp)]; exact h.rest i h1 h2 h3 h4.1 hi
    · exact h'.rest i (by omega) h2 (by simp) h4.2 h5

theorem set_last (c : List α) (x y : α) : (c ++ [x]).set c.length y = c ++ [y] := by simp

/-- `push` of a string that was just created. -/
theorem EndsLike.push {E : Env} {f : Unit → Prog γ} {o : Out δ} {R : Contents → γ → δ → Prop} {t : Arr} (h : Lists tr c₀ p sl old T c hs L)
    (hT : ∀ t ∈ T, t < c.length)
    (hk : ∀ c', Lists tr c₀ p sl old T c' (hs ++ [c.length]) (L ++ [t]) → c'.length = c.length + 1 → (∀ i ∈ T, i ≠ p → c'[i]? = c[i]?) →
      EndsLike ((f ()).plain E c') o R) :
    EndsLike ((Own.push p c.length >>= f).plain E (c ++ [some (Tag.str tr, t)])) o R := by
  obtain ⟨a, cap, hp, ha, hsl⟩ := h.list
  unfold Own.push
  by_cases hn : c.length + 1 < 2 ^ 64
  · rw [ptrTo_eq hn]
    have hp' : (c ++ [some (Tag.str tr, t)])[p]? = some (some (.plist tr, a)) := by rw [List.getElem?_append_left h.lt]; exact hp
    refine EndsLike.list hp' rfl ?_
    rcases plPush_any (E := E) ha (ptrOf_ne hn) with e | ⟨b, cap', e, hb, hbs⟩
    · exact Or.inl e
    · right
      refine ⟨b, e, hk _ (h.add hT hn hb (hbs.trans hsl)) (by simp) ?_⟩
      intro i hi hip
      rw [List.getElem?_set_ne (Ne.symm hip), List.getElem?_append_left (hT i hi)]
  · left
    unfold ptrTo
    rw [if_neg hn]
    rfl

end

/-! ### Splitting -/

theorem splitLoop_ends {E : Env} {c₀ : Contents} {p sl : Nat} {m sep : Mem} {n : Nat} : ∀ (fuel head : Nat) (c : Contents) (hs : List Nat) (L : List Arr),
    Lists tr c₀ p sl [] [] c hs L →
    EndsLike ((Own.splitLoop p m sep n fuel head).plain E c) (Str.splitLoop E m sep n fuel head L)
      fun c' _ L' => ∃ hs', Lists tr c₀ p sl [] [] c' hs' L'
  | 0, _, _, _, _, _ => Or.inr rfl
  | k + 1, head, c, hs, L, h => by
    unfold Own.splitLoop Str.splitLoop
    refine EndsLike.same fun cur _ => EndsLike.same fun hl _ => EndsLike.same fun cl _ => ?_
    dsimp only
    split
    · exact splitLoop_ends k _ c hs L h
    · obtain ⟨a, cap, hp, -⟩ := h.list
      refine EndsLike.makeLike (m := .strLen (wsub hl cl)) hp fun t _ => ?_
      refine EndsLike.call (cl := .setN _ _) (a := t) (k := .str tr) (by simp [Make.kind, Tag.str, Tag.plist]) rfl fun t' _ => ?_
      rw [set_last]
      refine EndsLike.push h (by simp) fun c' h' _ _ => ?_
      cases cur with
      | none => exact EndsLike.ok ⟨_, h'⟩
      | some q =>
        refine EndsLike.same fun x _ => ?_
        split
        · exact EndsLike.ok ⟨_, h'⟩
        · exact splitLoop_ends k _ c' _ _ h'

theorem strstrAt_bounds {m sub : Mem} {p i n : Nat} (hn : strlen sub = .ok n) (h : strstrAt m p sub = .ok (some i)) : p ≤ i ∧ i + n < m.length := by
  unfold strstrAt at h
  simp only [bind_eq_ok] at h
  obtain ⟨t, h1, zs, h2, h3⟩ := h
  unfold strlen at hn
  rw [h2, bind_ok] at hn
  injection hn with hn
  injection h3 with h3
  rw [Option.map_eq_some_iff] at h3
  obtain ⟨j, hj, rfl⟩ := h3
  obtain ⟨⟨a, b, e, ha⟩, -⟩ := findSub_some.1 hj
  unfold cstrAt at h1
  split at h1
  · have hl := scanZ_length h1
    rw [List.length_drop] at hl
    have := congrArg List.length e
    simp only [List.length_append] at this
    omega
  · cases h1

theorem findSub_empty (t : List UInt8) : findSub t [] = some 0 := by cases t <;> simp [findSub]

theorem countLoop_le {m sub : Mem} {n : Nat} (hn : strlen sub = .ok n) : ∀ (k p count r : Nat), Str.countLoop m sub n k p count = .ok r →
    r ≤ count + (m.length - p)
  | 0, _, _, _, h => by cases h
  | k + 1, p, count, r, h => by
    unfold Str.countLoop at h
    rw [bind_eq_ok] at h
    obtain ⟨q, h1, h2⟩ := h
    cases q with
    | none => injection h2 with h2; omega
    | some i =>
      have := countLoop_le hn k _ _ _ h2
      obtain ⟨hb, hb2⟩ := strstrAt_bounds hn h1
      by_cases h0 : n = 0
      · subst h0
        exfalso
        clear this hb hb2 h1
        -- an empty separator is found again and again
        have : ∀ (k p count : Nat), Str.countLoop m sub 0 k p count ≠ .ok r := by
          intro k
          induction k with
          | zero => intro p count h; cases h
          | succ k ih =>
            intro p count h
            unfold Str.countLoop at h
            rw [bind_eq_ok] at h
            obtain ⟨q, h1, h2⟩ := h
            have hs : scanZ sub = .ok [] := by
              unfold strlen at hn
              rw [bind_eq_ok] at hn
              obtain ⟨t, e, e'⟩ := hn
              injection e' with e'
              rw [e, List.length_eq_zero_iff.1 e']
            unfold strstrAt at h1
            simp only [bind_eq_ok] at h1
            obtain ⟨t, -, zs, e2, e3⟩ := h1
            rw [hs] at e2
            injection e2 with e2
            subst e2
            rw [findSub_empty] at e3
            injection e3 with e3
            subst e3
            exact ih _ _ h2
        exact this _ _ _ h2
      · omega

theorem canFind_le {a : Arr} {sep : Mem} {k r : Nat} (h : Str.canFind k a sep = .ok r) : r ≤ a.mem.length := by
  unfold Str.canFind at h
  simp only [bind_eq_ok] at h
  obtain ⟨n, h1, _, -, h2⟩ := h
  have := countLoop_le h1 _ _ _ _ h2
  omega

theorem plCreate_any {E : Env} {n : Nat} (hn : 0 < n) (hsz : n * 8 < 2 ^ 64) :
    Plist.create E n = .exit .alloc ∨ ∃ a, Plist.create E n = .ok a ∧ PlHolds a ⟨[], n⟩ ∧ a.slider = 0 := by
  by_cases h1 : E.allocOk arrStructSize = true
  · by_cases h2 : E.allocOk (n * 8) = true
    · right
      obtain ⟨p, e, h⟩ := plCreate_ok hn hsz h1 h2
      refine ⟨p, e, h, ?_⟩
      unfold Plist.create at e
      simp only [bind_eq_ok] at e
      obtain ⟨_, -, _, -, m, -, e⟩ := e
      injection e with e
      rw [← e]
    · left
      have h2' : E.allocOk (n * 8) = false := by simpa using h2
      have f2 : vtCalloc E (n * 8) = .exit .alloc := by simp [vtCalloc, h2', cassert, hn]
      simp [Plist.create, hn, wmul_eq hsz, vtCalloc_ok (by decide) h1, f2]
  · left
    have h1' : E.allocOk arrStructSize = false := by simpa using h1
    simp [Plist.create, hn, vtCalloc, h1', cassert, show 0 < arrStructSize from by decide]

theorem plReserve_any {E : Env} {a : Arr} {l : List Ptr} {cap n : Nat} (h : PlHolds a ⟨l, cap⟩) (hn : 0 < n) (hf : n * 8 < 2 ^ 63) :
    Plist.reserve E a n = .exit .alloc ∨ ∃ b cap', Plist.reserve E a n = .ok b ∧ PlHolds b ⟨l, cap'⟩ ∧ b.slider = a.slider := by
  rw [plReserve_eq]
  have hf' : n * a.elsize < 2 ^ 63 := by rw [h.es]; exact hf
  cases ha : E.allocOk ((a.cap + n) * a.elsize) with
  | true =>
    right
    obtain ⟨v, e, hw, he, hc, -, hes, hs, -⟩ := reserve_ok h.wf hn hf' ha
    refine ⟨v, cap + n, e, ⟨hw, hes.trans h.es, ?_⟩, hs⟩
    have hcap : a.cap = cap := h.cap
    unfold Arr.abs
    rw [he, h.elems, hc, hcap]
    rfl
  | false => exact Or.inl (reserve_fail h.wf hn hf' ha)

theorem plClear_holds {a : Arr} {s : Spec.SeqState Ptr} (h : PlHolds a s) : PlHolds (Plist.clear a) ⟨[], s.cap⟩ := by
  have hc := h.cap
  refine ⟨⟨Nat.zero_le _, h.wf.mem, h.wf.es, h.wf.cap, h.wf.lim⟩, h.es, ?_⟩
  unfold Arr.abs Arr.elems Plist.clear encState
  simp [chunks, hc]

/-- `vt_str_split` without a list. -/
theorem split_ends {E : Env} {c : Contents} {s : Nat} {kd : Tag} {a : Arr} {sep : Mem} {k : Nat} (hs : c[s]? = some (some (kd, a)))
    (hm : a.mem.length < 2 ^ 56) :
    EndsLike ((Own.split k none s sep).plain E c) (Str.split E k a sep) fun c' r o => match o with
      | none => r = none ∧ c' = c
      | some L => r = some c.length ∧ ∃ hs, Lists false c c.length 0 [] [] c' hs L := by
  unfold Own.split Str.split
  refine EndsLike.fields hs (EndsLike.same fun r hr => ?_)
  have hle := canFind_le hr
  split
  · exact EndsLike.ok ⟨rfl, rfl⟩
  · have e1 : wadd r 1 = r + 1 := wadd_eq (by omega)
    rw [e1]
    dsimp only
    refine EndsLike.seq (Q := fun c' p => p = c.length ∧ ∃ l cap, c' = c ++ [some (.plist false, l)] ∧ PlHolds l ⟨[], cap⟩ ∧ l.slider = 0) ?_ ?_
    · rw [make_plain]
      rcases plCreate_any (E := E) (n := r + 1) (by omega) (by omega) with e | ⟨l, e, hl, h0⟩
      · rw [show (Make.plist (r + 1)).run E = .exit .alloc from e]; exact Or.inl rfl
      · rw [show (Make.plist (r + 1)).run E = .ok l from e]
        exact Or.inr ⟨_, _, rfl, rfl, l, _, rfl, hl, h0⟩
    · rintro c' p ⟨rfl, l, cap, rfl, hl, h0⟩
      refine EndsLike.list (k := .plist false) (a := l) (by simp) rfl (Or.inr ⟨_, rfl, ?_⟩)
      rw [set_last]
      refine EndsLike.same fun n _ => ?_
      refine EndsLike.bind (splitLoop_ends _ _ _ _ _ (Lists.start (plClear_holds hl))) ?_
      rintro c' _ L' - ⟨hs', h'⟩
      exact EndsLike.ok ⟨rfl, hs', by simpa [Plist.clear, h0] using h'⟩

/-- `vt_str_split` into a list: the list is cleared first. -/
theorem split_into_ends {E : Env} {c : Contents} {s p : Nat} {kd : Tag} {a l : Arr} {qs : List Ptr} {cap : Nat} {sep : Mem} {k : Nat}
    (hs : c[s]? = some (some (kd, a))) (hp : c[p]? = some (some (.plist tr, l))) (hl : PlHolds l ⟨qs, cap⟩) (hm : a.mem.length < 2 ^ 56) :
    EndsLike ((Own.split k (some p) s sep).plain E c) (Str.split E k a sep) fun c' r o => match o with
      | none => r = none ∧ c' = c
      | some L => r = some p ∧ ∃ hs, Lists tr c p l.slider [] [] c' hs L := by
  unfold Own.split Str.split
  refine EndsLike.fields hs (EndsLike.same fun r hr => ?_)
  have hle := canFind_le hr
  have hlt := getElem?_lt hp
  split
  · exact EndsLike.ok ⟨rfl, rfl⟩
  · have e1 : wadd r 1 = r + 1 := wadd_eq (by omega)
    rw [e1]
    dsimp only
    refine EndsLike.seq (Q := fun c' p' => p' = p ∧ ∃ b cap', c' = c.set p (some (.plist tr, b)) ∧ PlHolds b ⟨qs, cap'⟩ ∧ b.slider = l.slider) ?_ ?_
    · refine EndsLike.fields hp ?_
      split
      · rename_i hsp
        refine EndsLike.list hp rfl ?_
        have e2 : wsub (r + 1) (hasSpace l) = r + 1 - hasSpace l := wsub_eq (by omega) (by omega)
        rw [e2]
        rcases plReserve_any (E := E) hl (n := r + 1 - hasSpace l) (by omega) (by omega) with e | ⟨b, cap', e, hb, hbs⟩
        · exact Or.inl e
        · exact Or.inr ⟨b, e, EndsLike.ok ⟨rfl, b, cap', rfl, hb, hbs⟩⟩
      · refine EndsLike.ok ⟨rfl, l, cap, ?_, hl, rfl⟩
        obtain ⟨h1, h2⟩ := List.getElem?_eq_some_iff.1 hp
        rw [← h2, List.set_getElem_self]
    · rintro c' p' ⟨rfl, b, cap', rfl, hb, hbs⟩
      refine EndsLike.list (k := .plist tr) (a := b) (by rw [List.getElem?_set_self hlt]) rfl (Or.inr ⟨_, rfl, ?_⟩)
      rw [List.set_set]
      refine EndsLike.same fun n _ => ?_
      have hst : Lists tr c p' l.slider [] [] (c.set p' (some (.plist tr, Plist.clear b))) [] [] := by
        have hc := plClear_holds hb
        rw [← hbs]
        exact { len := by simp, frame := fun i _ h _ => List.getElem?_set_ne (Ne.symm h), list := ⟨_, _, List.getElem?_set_self hlt, hc, rfl⟩, items := rfl,
                fresh := by simp, nodup := List.nodup_nil, rest := fun i h1 _ _ _ h3 => by simp at h3; omega }
      refine EndsLike.bind (splitLoop_ends _ _ _ _ _ hst) ?_
      rintro c' _ L' - ⟨hs', h'⟩
      exact EndsLike.ok ⟨rfl, hs', h'⟩

/-! ### Directory listings -/

theorem listLoop_ends {E : Env} {c₀ : Contents} {p sl : Nat} {ign : Bool} : ∀ (ns : List Fs.Name) (c : Contents) (hs : List Nat) (L : List Arr),
    Lists tr c₀ p sl [] [] c hs L →
    EndsLike ((Own.listLoop ign p ns).plain E c) (Path.listLoop E ign ns L) fun c' _ L' => ∃ hs', Lists tr c₀ p sl [] [] c' hs' L'
  | [], _, _, _, h => EndsLike.ok ⟨_, h⟩
  | n :: ns, c, hs, L, h => by
    unfold Own.listLoop Path.listLoop
    refine EndsLike.same fun b _ => ?_
    split
    · exact listLoop_ends ns c hs L h
    · obtain ⟨a, cap, hp, -⟩ := h.list
      refine EndsLike.makeLike (m := .str (Path.nameMem n)) hp fun t _ => ?_
      exact EndsLike.push h (by simp) fun c' h' _ _ => listLoop_ends ns c' _ _ h'

/-- `vt_path_dir_list` without a list. -/
theorem dirList_ends {E : Env} {c : Contents} {w : Fs.World} {z : Mem} {ign : Bool} :
    EndsLike ((Own.dirList w none z ign).plain E c) (Path.dirList E w z ign) fun c' r o => match o with
      | none => r = none ∧ c' = c
      | some L => r = some c.length ∧ ∃ hs, Lists false c c.length 0 [] [] c' hs L := by
  unfold Own.dirList Path.dirList
  refine EndsLike.same fun t _ => ?_
  split
  · exact EndsLike.ok ⟨rfl, rfl⟩
  · cases Fs.readdir w t with
    | none => exact EndsLike.ok ⟨rfl, rfl⟩
    | some ns =>
      dsimp only
      refine EndsLike.seq (Q := fun c' p => p = c.length ∧ ∃ l cap, c' = c ++ [some (.plist false, l)] ∧ PlHolds l ⟨[], cap⟩ ∧ l.slider = 0) ?_ ?_
      · rw [make_plain]
        rcases plCreate_any (E := E) (n := defaultInit) (by decide) (by decide) with e | ⟨l, e, hl, h0⟩
        · rw [show (Make.plist defaultInit).run E = .exit .alloc from e]; exact Or.inl rfl
        · rw [show (Make.plist defaultInit).run E = .ok l from e]
          exact Or.inr ⟨_, _, rfl, rfl, l, _, rfl, hl, h0⟩
      · rintro c' p ⟨rfl, l, cap, rfl, hl, h0⟩
        refine EndsLike.list (k := .plist false) (a := l) (by simp) rfl (Or.inr ⟨_, rfl, ?_⟩)
        rw [set_last]
        refine EndsLike.bind (listLoop_ends ns _ _ _ (Lists.start (plClear_holds hl))) ?_
        rintro c' _ L' - ⟨hs', h'⟩
        exact EndsLike.ok ⟨rfl, hs', by simpa [Plist.clear, h0] using h'⟩

/-- `vt_path_dir_list` into a list: the list is cleared first. -/
theorem dirList_into_ends {E : Env} {c : Contents} {w : Fs.World} {z : Mem} {ign : Bool} {p : Nat} {l : Arr} {qs : List Ptr} {cap : Nat}
    (hp : c[p]? = some (some (.plist tr, l))) (hl : PlHolds l ⟨qs, cap⟩) :
    EndsLike ((Own.dirList w (some p) z ign).plain E c) (Path.dirList E w z ign) fun c' r o => match o with
      | none => r = none ∧ c' = c
      | some L => r = some p ∧ ∃ hs, Lists tr c p l.slider [] [] c' hs L := by
  unfold Own.dirList Path.dirList
  refine EndsLike.same fun t _ => ?_
  have hlt := getElem?_lt hp
  split
  · exact EndsLike.ok ⟨rfl, rfl⟩
  · cases Fs.readdir w t with
    | none => exact EndsLike.ok ⟨rfl, rfl⟩
    | some ns =>
      dsimp only
      refine EndsLike.seq (Q := fun c' p' => p' = p ∧ c' = c) (EndsLike.ok ⟨rfl, rfl⟩) ?_
      rintro c' p' ⟨rfl, rfl⟩
      refine EndsLike.list hp rfl (Or.inr ⟨_, rfl, ?_⟩)
      have hst : Lists tr c' p' l.slider [] [] (c'.set p' (some (.plist tr, Plist.clear l))) [] [] :=
        { len := by simp, frame := fun i _ h _ => List.getElem?_set_ne (Ne.symm h), list := ⟨_, _, List.getElem?_set_self hlt, plClear_holds hl, rfl⟩,
          items := rfl, fresh := by simp, nodup := List.nodup_nil, rest := fun i h1 _ _ _ h3 => by simp at h3; omega }
      refine EndsLike.bind (listLoop_ends ns _ _ _ hst) ?_
      rintro c' _ L' - ⟨hs', h'⟩
      exact EndsLike.ok ⟨rfl, hs', h'⟩

/-- What the recursive call does to a list that is passed in. -/
def RecGood (tr : Bool) (E : Env) (rec : Nat → Mem → Prog (Option Nat)) (rec' : List Arr → Mem → Out (Option (List Arr))) : Prop :=
  ∀ (c : Contents) (p : Nat) (l : Arr) (old : List Nat) (cap : Nat) (pl : List Arr) (z : Mem), c[p]? = some (some (.plist tr, l)) →
    PlHolds l ⟨old.map ptrOf, cap⟩ →
    EndsLike ((rec p z).plain E c) (rec' pl z) fun c' r o => match o with
      | none => r = none ∧ c' = c
      | some pl' => r = some p ∧ ∃ hs L, pl' = pl ++ L ∧ Lists tr c p l.slider old [] c' hs L

theorem recurseLoop_ends {E : Env} {w : Fs.World} {ign : Bool} {z : Mem} {rec : Nat → Mem → Prog (Option Nat)}
    {rec' : List Arr → Mem → Out (Option (List Arr))} (hrec : RecGood tr E rec rec') {c₀ : Contents} {p sl : Nat} {old : List Nat} {j : Nat} {pl : List Arr}
    (hj : j ≠ p) : ∀ (ns : List Fs.Name) (c : Contents) (hs : List Nat) (L : List Arr) (st : Arr),
    Lists tr c₀ p sl old [j] c hs L → c[j]? = some (some (.str tr, st)) →
    EndsLike ((Own.recurseLoop w ign z rec p j ns).plain E c) (Path.recurseLoop E w ign z rec' ns st (pl ++ L)) fun c' _ pl' =>
      ∃ hs' L' st', pl' = pl ++ L' ∧ Lists tr c₀ p sl old [j] c' hs' L' ∧ c'[j]? = some (some (.str tr, st'))
  | [], _, _, _, _, h, hst => EndsLike.ok ⟨_, _, _, rfl, h, hst⟩
  | n :: ns, c, hs, L, st, h, hst => by
    unfold Own.recurseLoop Path.recurseLoop
    refine EndsLike.same fun b _ => ?_
    split
    · exact recurseLoop_ends hrec hj ns c hs L st h hst
    · have self : ∀ (c : Contents) (x y : Option (Tag × Arr)), c[j]? = some x → (c.set j y)[j]? = some y := fun c x y h =>
        List.getElem?_set_self (getElem?_lt h)
      refine EndsLike.call (cl := .append z) hst rfl fun st1 _ => ?_
      have h1 := h.setT (t := j) (by simp) hj (some (.str tr, st1))
      have e1 := self _ _ (some (.str tr, st1)) hst
      refine EndsLike.call (cl := .append Path.sepZ) e1 rfl fun st2 _ => ?_
      have h2 := h1.setT (t := j) (by simp) hj (some (.str tr, st2))
      have e2 := self _ _ (some (.str tr, st2)) e1
      refine EndsLike.call (cl := .append (Path.nameMem n)) e2 rfl fun st3 _ => ?_
      have h3 := h2.setT (t := j) (by simp) hj (some (.str tr, st3))
      have e3 := self _ _ (some (.str tr, st3)) e2
      generalize ((c.set j _).set j _).set j _ = c3 at h3 e3
      refine EndsLike.fields e3 (EndsLike.same fun t _ => ?_)
      refine EndsLike.bind (Q := fun c' r o => match o with
        | none => r = none ∧ ∃ hs' , Lists tr c₀ p sl old [j] c' hs' L ∧ c'[j]? = some (some (.str tr, st3))
        | some pl' => (∃ q, r = some q) ∧ ∃ hs' L', pl' = pl ++ L' ∧ Lists tr c₀ p sl old [j] c' hs' L' ∧ c'[j]? = some (some (.str tr, st3))) ?_ ?_
      · split
        · obtain ⟨a, cap, hp, ha, hsl⟩ := h3.list
          refine (hrec c3 p a (old ++ hs) cap (pl ++ L) st3.mem hp ha).mono ?_
          intro c' r o hq
          cases o with
          | none => exact ⟨hq.1, hs, by rw [hq.2]; exact h3, by rw [hq.2]; exact e3⟩
          | some pl' =>
            obtain ⟨hr, hs', L', e, hl⟩ := hq
            rw [hsl] at hl
            have hT : ∀ t ∈ [j], t < c3.length := by intro t ht; simp at ht; rw [ht]; exact getElem?_lt e3
            refine ⟨⟨p, hr⟩, _, _, by rw [e, List.append_assoc], h3.trans hT hl, ?_⟩
            rw [hl.frame j (getElem?_lt e3) hj (by simp)]; exact e3
        · exact EndsLike.ok ⟨⟨p, rfl⟩, hs, L, rfl, h3, e3⟩
      · intro c4 r o _ hq
        cases o with
        | none =>
          obtain ⟨rfl, hs', hl, e⟩ := hq
          exact EndsLike.ok ⟨hs', L, st3, rfl, hl, e⟩
        | some pl' =>
          obtain ⟨⟨q, rfl⟩, hs', L', rfl, hl, e4⟩ := hq
          dsimp only
          refine EndsLike.dup e4 fun d _ => ?_
          have hT : ∀ t ∈ [j], t < c4.length := by intro t ht; simp at ht; rw [ht]; exact getElem?_lt e4
          refine EndsLike.push hl hT fun c5 h5 _ k5 => ?_
          have e5 : c5[j]? = some (some (.str tr, st3)) := by rw [k5 j (by simp) hj]; exact e4
          refine EndsLike.call (cl := .clear) e5 rfl fun st6 _ => ?_
          rw [List.append_assoc]
          exact recurseLoop_ends hrec hj ns _ _ _ st6 (h5.setT (t := j) (by simp) hj _) (self _ _ _ e5)

theorem recurseBody_ends {E : Env} {w : Fs.World} {ign : Bool} {z : Mem} {rec : Nat → Mem → Prog (Option Nat)}
    {rec' : List Arr → Mem → Out (Option (List Arr))} (hrec : RecGood tr E rec rec') {c₀ c : Contents} {p sl : Nat} {old : List Nat} {pl : List Arr}
    {ns : List Fs.Name} (h : Lists tr c₀ p sl old [] c [] []) :
    EndsLike ((do
        let st ← makeLike p (.strCapacity defaultInit)
        Own.recurseLoop w ign z rec p st ns
        discard st
        Prog.out (.ok (some p)) : Prog (Option Nat)).plain E c)
      (do
        let st ← Str.createCapacity E defaultInit
        let r ← Path.recurseLoop E w ign z rec' ns st pl
        .ok (some r)) fun c' r o => match o with
      | none => False
      | some pl' => r = some p ∧ ∃ hs L, pl' = pl ++ L ∧ Lists tr c₀ p sl old [] c' hs L := by
  obtain ⟨a, cap, hp, -⟩ := h.list
  refine EndsLike.makeLike (m := .strCapacity defaultInit) hp fun st _ => ?_
  have hj : c.length ≠ p := by have := h.lt; omega
  have := recurseLoop_ends (w := w) (ign := ign) (z := z) (pl := pl) hrec hj ns _ _ _ st (h.temp (some (.str tr, st))) (by simp [Make.kind, Tag.str, Tag.plist])
  rw [List.append_nil] at this
  refine EndsLike.bind this ?_
  rintro c' _ pl' - ⟨hs', L', st', rfl, hl, e⟩
  refine EndsLike.discard e (EndsLike.ok ⟨rfl, hs', L', rfl, ?_⟩)
  exact (hl.setT (t := c.length) (by simp) hj none).untemp h.len (List.getElem?_set_self (getElem?_lt e))

theorem dirListRecurse_into {E : Env} {w : Fs.World} {ign : Bool} : ∀ k, RecGood tr E (fun p z => Own.dirListRecurse w ign k (some p) z)
    (Path.dirListRecurse E w ign k)
  | 0 => fun _ _ _ _ _ _ _ _ _ => Or.inr rfl
  | k + 1 => by
    intro c p l old cap pl z hp hl
    dsimp only
    unfold Own.dirListRecurse Path.dirListRecurse
    refine EndsLike.same fun t _ => ?_
    split
    · exact EndsLike.ok ⟨rfl, rfl⟩
    · cases Fs.readdir w t with
      | none => exact EndsLike.ok ⟨rfl, rfl⟩
      | some ns =>
        dsimp only
        refine EndsLike.seq (Q := fun c' p' => p' = p ∧ c' = c) (EndsLike.ok ⟨rfl, rfl⟩) ?_
        rintro c' p' ⟨rfl, rfl⟩
        refine (recurseBody_ends (dirListRecurse_into k) (Lists.start_old hp hl)).mono ?_
        intro c' r o hq
        cases o with
        | none => exact hq.elim
        | some pl' => exact hq

/-- `vt_path_dir_list_recurse` without a list. -/
theorem dirListRecurse_ends {E : Env} {w : Fs.World} {ign : Bool} {c : Contents} {z : Mem} : ∀ k,
    EndsLike ((Own.dirListRecurse w ign k none z).plain E c) (Path.dirListRecurse E w ign k [] z) fun c' r o => match o with
      | none => r = none ∧ c' = c
      | some L => r = some c.length ∧ ∃ hs, Lists false c c.length 0 [] [] c' hs L
  | 0 => Or.inr rfl
  | k + 1 => by
    unfold Own.dirListRecurse Path.dirListRecurse
    refine EndsLike.same fun t _ => ?_
    split
    · exact EndsLike.ok ⟨rfl, rfl⟩
    · cases Fs.readdir w t with
      | none => exact EndsLike.ok ⟨rfl, rfl⟩
      | some ns =>
        dsimp only
        refine EndsLike.seq (Q := fun c' p => p = c.length ∧ ∃ l cap, c' = c ++ [some (.plist false, l)] ∧ PlHolds l ⟨[], cap⟩ ∧ l.slider = 0) ?_ ?_
        · rw [make_plain]
          rcases plCreate_any (E := E) (n := defaultInit) (by decide) (by decide) with e | ⟨l, e, hl, h0⟩
          · rw [show (Make.plist defaultInit).run E = .exit .alloc from e]; exact Or.inl rfl
          · rw [show (Make.plist defaultInit).run E = .ok l from e]
            exact Or.inr ⟨_, _, rfl, rfl, l, _, rfl, hl, h0⟩
        · rintro c' p ⟨rfl, l, cap, rfl, hl, h0⟩
          have hst := Lists.start (c := c) (tr := false) hl
          rw [h0] at hst
          refine (recurseBody_ends (dirListRecurse_into k) hst).mono ?_
          intro c' r o hq
          cases o with
          | none => exact hq.elim
          | some pl' =>
            obtain ⟨hr, hs, L, e, hl⟩ := hq
            rw [List.nil_append] at e
            exact ⟨hr, hs, e ▸ hl⟩

/-! ### Freeing lists -/

theorem clean_of {c c' : Contents} (hl : c.length ≤ c'.length) (h1 : ∀ i, i < c.length → c'[i]? = c[i]?)
    (h2 : ∀ i, c.length ≤ i → i < c'.length → c'[i]? = some none) : Clean c c' := by
  refine ⟨c'.length - c.length, List.ext_getElem? fun i => ?_⟩
  by_cases hi : i < c.length
  · rw [h1 i hi, List.getElem?_append_left hi]
  · rw [List.getElem?_append_right (by omega), List.getElem?_replicate]
    split
    · exact h2 i (by omega) (by omega)
    · exact List.getElem?_eq_none (by omega)

/-- The contents after the containers `D` have been destroyed, the container `p` left out of consideration. -/
structure Gone (c : Contents) (p : Nat) (D : List Nat) (c' : Contents) : Prop where
  len : c'.length = c.length
  get : ∀ j, j ≠ p → c'[j]? = if j ∈ D then some none else c[j]?

theorem Gone.refl {c : Contents} {p : Nat} : Gone c p [] c := ⟨rfl, fun j _ => by simp⟩

theorem Gone.more {c c' : Contents} {p : Nat} {D : List Nat} (h : Gone c p D c') {x : Nat} (hx : x < c.length) :
    Gone c p (D ++ [x]) (c'.set x none) := by
  refine ⟨by simpa using h.len, fun j hj => ?_⟩
  by_cases e : j = x
  · subst e
    rw [List.getElem?_set_self (by rw [h.len]; exact hx), if_pos (by simp)]
  · rw [List.getElem?_set_ne (Ne.symm e), h.get j hj]
    simp [e]

theorem Gone.setp {c c' : Contents} {p : Nat} {D : List Nat} (h : Gone c p D c') (x : Option (Tag × Arr)) : Gone c p D (c'.set p x) := by
  refine ⟨by simpa using h.len, fun j hj => ?_⟩
  rw [List.getElem?_set_ne (Ne.symm hj), h.get j hj]

theorem plGet_any {E : Env} {a : Arr} {l : List Ptr} {cap : Nat} (h : PlHolds a ⟨l, cap⟩) {i : Nat} {q : Ptr} (hq : l[i]? = some q) :
    Plist.get E a i = .ok q := by
  have hi : i < a.len := by rw [h.len]; exact getElem?_lt hq
  unfold Plist.get
  rw [decide_eq_true hi, dassert_true, bind_ok]
  exact loadPtr_elem h.wf h.es (by rw [h.elems, List.getElem?_map, hq]; rfl)

theorem get_plain {E : Env} {c : Contents} {p : Nat} {a : Arr} {l : List Ptr} {cap i : Nat} {q : Ptr} (hp : c[p]? = some (some (.plist tr, a)))
    (h : PlHolds a ⟨l, cap⟩) (hq : l[i]? = some q) : (Own.get E p i).plain E c = .ok (c, q) := by
  unfold Own.get
  rw [plain_bind, fields_plain hp, bind_ok]
  dsimp only
  rw [plGet_any h hq]
  rfl

theorem slide_plain {E : Env} {c : Contents} {p : Nat} {a b : Arr} {q : Ptr} (hp : c[p]? = some (some (.plist tr, a)))
    (h : Plist.slideFront a = .ok (b, q)) : (Own.slide p).plain E c = .ok (c.set p (some (.plist tr, b)), q) := by
  unfold Own.slide
  rw [plain_bind, fields_plain hp, bind_ok]
  dsimp only
  rw [h]
  show ((call p .plSlide >>= fun _ => Prog.out (.ok q)).plain E c) = _
  rw [plain_bind, call_plain hp rfl]
  show ((Plist.slideFront a >>= fun r => Out.ok r.1) >>= _) >>= _ = _
  rw [h]
  rfl

section
variable {c₀ c : Contents} {p sl : Nat} {T hs : List Nat} {L : List Arr}

theorem Lists.ptr (h : Lists tr c₀ p sl [] T c hs L) {i x : Nat} (hx : hs[i]? = some x) : (([] ++ hs).map ptrOf)[i]? = some (ptrOf x) := by
  simp [hx]

theorem Lists.live (h : Lists tr c₀ p sl [] T c hs L) {i x : Nat} (hx : hs[i]? = some x) : ∃ t, L[i]? = some t ∧ c[x]? = some (some (.str tr, t)) := by
  have hi := getElem?_lt hx
  rw [h.length_eq] at hi
  obtain ⟨y, hy, e⟩ := h.item (List.getElem?_eq_getElem hi)
  rw [hx] at hy
  injection hy with hy
  subst hy
  exact ⟨_, List.getElem?_eq_getElem hi, e⟩

theorem freeItems_plain {E : Env} (h : Lists tr c₀ p sl [] T c hs L) : ∀ (k i : Nat), i + k = hs.length → ∀ c', Gone c p (hs.take i) c' → c'[p]? = c[p]? →
    ∃ c'', (Own.freeItems E p k i).plain E c' = .ok (c'', ()) ∧ Gone c p hs c'' ∧ c''[p]? = c[p]?
  | 0, i, hi, c', hg, hp => ⟨c', rfl, by rw [List.take_of_length_le (by omega)] at hg; exact hg, hp⟩
  | k + 1, i, hi, c', hg, hp => by
    obtain ⟨a, cap, hpa, ha, -⟩ := h.list
    have hx : hs[i]? = some hs[i] := List.getElem?_eq_getElem (by omega)
    have hmem : hs[i] ∈ hs := List.getElem_mem _
    have hf := h.fresh _ hmem
    obtain ⟨t, -, ht⟩ := h.live hx
    have ht' : c'[hs[i]]? = some (some (.str tr, t)) := by
      rw [hg.get _ hf.2.1, if_neg, ht]
      intro hm
      obtain ⟨j, hj, e⟩ := List.getElem_of_mem hm
      rw [List.getElem_take] at e
      have := (List.Nodup.getElem_inj_iff h.nodup).1 e
      rw [List.length_take] at hj
      omega
    unfold Own.freeItems
    rw [plain_bind, get_plain (hp.trans hpa) ha (h.ptr hx), bind_ok]
    dsimp only
    rw [target_ptrOf hf.2.2.2]
    show ∃ c'', ((discard hs[i] >>= fun _ => Own.freeItems E p k (i + 1)).plain E c') = .ok (c'', ()) ∧ _
    rw [plain_bind, discard_plain ht', bind_ok]
    dsimp only
    have hg' := hg.more (h.item_lt hmem)
    have e : hs.take i ++ [hs[i]] = hs.take (i + 1) := by rw [List.take_add_one, hx]; rfl
    rw [e] at hg'
    exact freeItems_plain h k (i + 1) (by omega) _ hg' (by rw [List.getElem?_set_ne hf.2.1]; exact hp)

/-- path.c:351-361, 422-432: all strings of the list and the list are gone. -/
theorem freeList_plain {E : Env} (h : Lists tr c₀ p sl [] T c hs L) :
    ∃ c', (Own.freeList E p).plain E c = .ok (c', ()) ∧ c'.length = c.length ∧ ∀ j, c'[j]? = if j = p ∨ j ∈ hs then some none else c[j]? := by
  obtain ⟨a, cap, hpa, ha, -⟩ := h.list
  have hl : a.len = hs.length := by rw [ha.len]; simp
  obtain ⟨c1, e1, hg, hp⟩ := freeItems_plain (E := E) h a.len 0 (by omega) c (by simpa using Gone.refl) rfl
  refine ⟨c1.set p none, ?_, by simpa using hg.len, fun j => ?_⟩
  · unfold Own.freeList
    rw [plain_bind, fields_plain hpa, bind_ok]
    dsimp only
    rw [plain_bind, e1, bind_ok]
    dsimp only
    exact discard_plain (hp.trans hpa)
  · by_cases e : j = p
    · subst e
      rw [List.getElem?_set_self (by rw [hg.len]; exact h.lt), if_pos (Or.inl rfl)]
    · rw [List.getElem?_set_ne (Ne.symm e), hg.get j e]
      simp [e]

/-- The loop of `vt_path_dir_free`. -/
theorem freeLoop_plain {E : Env} (h : Lists tr c₀ p sl [] T c hs L) : ∀ (k i : Nat), hs.length - i < k → sl ≤ i → ∀ c' a cap,
    Gone c p ((hs.take i).drop sl) c' → c'[p]? = some (some (.plist tr, a)) → PlHolds a ⟨hs.map ptrOf, cap⟩ → a.slider = i →
    ∃ c'' a', (Own.freeLoop p k).plain E c' = .ok (c'', ()) ∧ Gone c p (hs.drop sl) c'' ∧ c''[p]? = some (some (.plist tr, a'))
  | 0, i, hk, hi, c', a, cap, hg, hp, ha, hs' => by omega
  | k + 1, i, hk, hi, c', a, cap, hg, hp, ha, hs' => by
    unfold Own.freeLoop
    obtain ⟨s1, s2⟩ := C09_plist_slide_front a _ ha
    by_cases hlt : i < hs.length
    · have hx : hs[i]? = some hs[i] := List.getElem?_eq_getElem hlt
      have hmem : hs[i] ∈ hs := List.getElem_mem _
      have hf := h.fresh _ hmem
      obtain ⟨t, -, ht⟩ := h.live hx
      have ht' : c'[hs[i]]? = some (some (.str tr, t)) := by
        rw [hg.get _ hf.2.1, if_neg, ht]
        intro hm
        obtain ⟨j, hj, e⟩ := List.getElem_of_mem (List.mem_of_mem_drop hm)
        rw [List.getElem_take] at e
        have := (List.Nodup.getElem_inj_iff h.nodup).1 e
        rw [List.length_take] at hj
        omega
      have e1 := s1 (by rw [hs', List.length_map]; exact hlt)
      have eq : (hs.map ptrOf)[a.slider]'(by rw [hs', List.length_map]; exact hlt) = ptrOf hs[i] := by simp [hs']
      rw [plain_bind, slide_plain hp e1, bind_ok]
      dsimp only
      rw [eq, if_neg (ptrOf_ne hf.2.2.2), target_ptrOf hf.2.2.2]
      show ∃ c'' a', ((discard hs[i] >>= fun _ => Own.freeLoop p k).plain E _) = .ok (c'', ()) ∧ _
      have hlt' := getElem?_lt hp
      have ht2 : (c'.set p (some (Tag.plist tr, { a with slider := a.slider + 1 })))[hs[i]]? = some (some (.str tr, t)) := by
        rw [List.getElem?_set_ne (Ne.symm hf.2.1)]; exact ht'
      rw [plain_bind, discard_plain ht2, bind_ok]
      dsimp only
      have hg' := (hg.setp (some (Tag.plist tr, { a with slider := a.slider + 1 }))).more (h.item_lt hmem)
      have e : (hs.take i).drop sl ++ [hs[i]] = (hs.take (i + 1)).drop sl := by
        rw [List.take_add_one, hx, List.drop_append_of_le_length (by rw [List.length_take]; omega)]; rfl
      rw [e] at hg'
      refine freeLoop_plain h k (i + 1) (by omega) (by omega) _ _ cap hg' (by rw [List.getElem?_set_ne hf.2.1, List.getElem?_set_self hlt']) ?_ (by simp [hs'])
      exact ⟨⟨ha.wf.le, ha.wf.mem, ha.wf.es, ha.wf.cap, ha.wf.lim⟩, ha.es, ha.abs⟩
    · have e2 := s2 (by rw [hs', List.length_map]; omega)
      rw [plain_bind, slide_plain hp e2, bind_ok]
      dsimp only
      rw [if_pos rfl]
      refine ⟨_, { a with slider := 0 }, rfl, ?_, by rw [List.getElem?_set_self (getElem?_lt hp)]⟩
      rw [List.take_of_length_le (by omega)] at hg
      exact hg.setp _

/-- `vt_path_dir_free`: the list and the strings from the slider on are gone. -/
theorem dirFree_plain {E : Env} (h : Lists tr c₀ p sl [] T c hs L) {k : Nat} (hk : hs.length < k) :
    ∃ c', (Own.dirFree k p).plain E c = .ok (c', ()) ∧ c'.length = c.length ∧
      ∀ j, c'[j]? = if j = p ∨ j ∈ hs.drop sl then some none else c[j]? := by
  obtain ⟨a, cap, hpa, ha, hsl⟩ := h.list
  have hl : a.len = hs.length := by rw [ha.len]; simp
  have key : ∃ c1 a', Gone c p (hs.drop sl) c1 ∧ c1[p]? = some (some (.plist tr, a')) ∧
      (Own.dirFree k p).plain E c = (discard p).plain E c1 := by
    unfold Own.dirFree
    rw [plain_bind, fields_plain hpa, bind_ok]
    dsimp only
    by_cases h0 : a.len = 0
    · rw [if_neg (not_not.2 h0)]
      refine ⟨c, a, ?_, hpa, rfl⟩
      have : hs = [] := List.length_eq_zero_iff.1 (by omega)
      rw [this]; simpa using Gone.refl
    · rw [if_pos h0]
      obtain ⟨c1, a', e1, hg, hp⟩ := freeLoop_plain (E := E) h k sl (by omega) (Nat.le_refl _) c a cap
        (by rw [List.drop_of_length_le (by rw [List.length_take]; omega)]; exact Gone.refl) hpa (by simpa using ha) hsl
      refine ⟨c1, a', hg, hp, ?_⟩
      rw [plain_bind, e1, bind_ok]
  obtain ⟨c1, a', hg, hp, e⟩ := key
  refine ⟨c1.set p none, by rw [e]; exact discard_plain hp, by simpa using hg.len, fun j => ?_⟩
  by_cases e : j = p
  · subst e
    rw [List.getElem?_set_self (by rw [hg.len]; exact h.lt), if_pos (Or.inl rfl)]
  · rw [List.getElem?_set_ne (Ne.symm e), hg.get j e]
    simp [e]

end

/-! ### Making and removing directories -/

theorem Lists.forget {c₀ c : Contents} {p sl : Nat} {old T hs : List Nat} {L : List Arr} (h : Lists tr c₀ p sl old T c hs L) {t : Nat} (ht : t < c₀.length) :
    Lists tr c₀ p sl old (t :: T) c hs L where
  len := h.len
  frame := by
    intro i h1 h2 h3
    simp only [List.mem_cons, not_or] at h3
    exact h.frame i h1 h2 h3.2
  list := h.list
  items := h.items
  fresh := by
    intro y hy
    obtain ⟨h1, h2, h3, h4⟩ := h.fresh y hy
    refine ⟨h1, h2, ?_, h4⟩
    simp only [List.mem_cons, not_or]
    exact ⟨by omega, h3⟩
  nodup := h.nodup
  rest := by
    intro i h1 h2 h3 h4 h5
    simp only [List.mem_cons, not_or] at h3
    exact h.rest i h1 h2 h3.2 h4 h5

theorem EndsLike.get {E : Env} {f : Ptr → Prog γ} {c : Contents} {p : Nat} {a : Arr} {l : List Ptr} {cap i : Nat} {q : Ptr} {o : Out δ}
    {R : Contents → γ → δ → Prop} (hp : c[p]? = some (some (.plist tr, a))) (h : PlHolds a ⟨l, cap⟩) (hq : l[i]? = some q)
    (hk : EndsLike ((f q).plain E c) o R) : EndsLike ((Own.get E p i >>= f).plain E c) o R := by
  rw [plain_bind, get_plain hp h hq]; exact hk

theorem EndsLike.target {E : Env} {f : Nat → Prog γ} {c : Contents} {n : Nat} {o : Out δ} {R : Contents → γ → δ → Prop} (hn : n + 1 < 2 ^ 64)
    (hk : EndsLike ((f n).plain E c) o R) : EndsLike ((Own.target (ptrOf n) >>= f).plain E c) o R := by
  rw [target_ptrOf hn]; exact hk

theorem mkdirLoop_ends {E : Env} {c₀ : Contents} {p sl j : Nat} {hs : List Nat} {L : List Arr} (hj : j ≠ p) :
    ∀ (k i : Nat), i + k = L.length → ∀ (c : Contents) (sfull : Arr) (w : Fs.World), Lists tr c₀ p sl [] [j] c hs L → c[j]? = some (some (.str tr, sfull)) →
    EndsLike ((Own.mkdirLoop E p j k i w).plain E c) (Path.mkdirLoop E (L.drop i) sfull w) fun c' w' w'' => w' = w'' ∧ Lists tr c₀ p sl [] [j] c' hs L ∧
      ∃ a, c'[j]? = some (some (.str tr, a))
  | 0, i, hi, c, sfull, w, h, hf => by
    rw [List.drop_of_length_le (by omega)]
    exact EndsLike.ok ⟨rfl, h, _, hf⟩
  | k + 1, i, hi, c, sfull, w, h, hf => by
    have hlt : i < L.length := by omega
    rw [List.drop_eq_getElem_cons hlt]
    unfold Own.mkdirLoop Path.mkdirLoop
    obtain ⟨a, cap, hpa, ha, hsl⟩ := h.list
    obtain ⟨x, hx, hxc⟩ := h.item (List.getElem?_eq_getElem hlt)
    have hfr := h.fresh x (List.mem_of_getElem? hx)
    refine EndsLike.get hpa ha (h.ptr hx) (EndsLike.target hfr.2.2.2 (EndsLike.fields hxc ?_))
    refine EndsLike.call (cl := .append _) hf rfl fun s1 _ => ?_
    have h1 := h.setT (t := j) (by simp) hj (some (.str tr, s1))
    have e1 : (c.set j (some (Tag.str tr, s1)))[j]? = _ := List.getElem?_set_self (getElem?_lt hf)
    refine EndsLike.call (cl := .append _) e1 rfl fun s2 _ => ?_
    have h2 := h1.setT (t := j) (by simp) hj (some (.str tr, s2))
    have e2 : ((c.set j (some (Tag.str tr, s1))).set j (some (Tag.str tr, s2)))[j]? = _ := List.getElem?_set_self (getElem?_lt e1)
    refine EndsLike.fields e2 (EndsLike.same fun t _ => ?_)
    exact mkdirLoop_ends hj k (i + 1) (by omega) _ s2 _ h2 e2

/-- `vt_path_mkdir_parents` leaves nothing behind. -/
theorem mkdirParents_ends {E : Env} {k : Nat} {w : Fs.World} {z : Mem} {c : Contents} :
    EndsLike ((Own.mkdirParents E k w z).plain E c) (Path.mkdirParents E k w z) fun c' r r' => r = r' ∧ Clean c c' := by
  have clean0 : Clean c c := ⟨0, by simp⟩
  unfold Own.mkdirParents Path.mkdirParents
  refine EndsLike.same fun t ht => ?_
  split
  · exact EndsLike.ok ⟨rfl, clean0⟩
  refine EndsLike.make (m := .str z) fun s hs => ?_
  have es : (c ++ [some ((⟨Make.kind (.str z), false⟩ : Tag), s)])[c.length]? = some (some (.str false, s)) := by simp [Make.kind, Tag.str, Tag.plist]
  refine EndsLike.fields es ?_
  refine EndsLike.make (m := .strCapacity (wadd s.len 1)) fun sf hsf => ?_
  have hm : s.mem.length < 2 ^ 56 := by
    obtain ⟨-, g, e, -⟩ := make_owned (m := .str z) hs
    rw [e]
    exact E.lim _ g.1
  refine EndsLike.same fun ch _ => ?_
  -- after the separator
  let c1 : Arr → Contents := fun sf => c ++ [some (Tag.str false, s), some (Tag.str false, sf)]
  have hc1 : ∀ sf : Arr, c ++ [some ((⟨Make.kind (.str z), false⟩ : Tag), s)] ++ [some ((⟨Make.kind (.strCapacity (wadd s.len 1)), false⟩ : Tag), sf)] = c1 sf := by
    intro sf; simp [c1, Make.kind, Tag.str]
  have hl : (c ++ [some ((⟨Make.kind (.str z), false⟩ : Tag), s)]).length = c.length + 1 := by simp
  rw [hc1, hl]
  have e1 : ∀ sf, (c1 sf)[c.length]? = some (some (.str false, s)) := by intro sf; simp [c1]
  have e2 : ∀ sf, (c1 sf)[c.length + 1]? = some (some (.str false, sf)) := by intro sf; simp [c1]
  have el : ∀ sf, (c1 sf).length = c.length + 2 := by intro sf; simp [c1]
  refine EndsLike.bind (Q := fun c' _ sf' => c' = c1 sf') ?_ ?_
  · split
    · refine (EndsLike.call_last (cl := .append Path.sepZ) (e2 sf) rfl).mono ?_
      rintro c' _ b rfl
      simp [c1]
    · exact EndsLike.ok rfl
  rintro c' _ sf' - rfl
  refine EndsLike.bind (split_ends (e1 sf') hm) ?_
  intro c2 r o _ hq
  cases o with
  | none =>
    obtain ⟨rfl, rfl⟩ := hq
    dsimp only
    refine EndsLike.discard (e1 sf') (EndsLike.discard (x := (.str false, sf')) ?_ (EndsLike.ok ⟨rfl, 2, ?_⟩))
    · rw [List.getElem?_set_ne (by omega)]; exact e2 sf'
    · simp [c1]
  | some L =>
    obtain ⟨rfl, hs, h⟩ := hq
    dsimp only
    obtain ⟨l, cap, hpl, hlh, hsl⟩ := h.list
    have hll : l.len = L.length := by rw [hlh.len, ← h.length_eq]; simp
    refine EndsLike.fields hpl ?_
    have hj : c.length + 1 ≠ (c1 sf').length := by rw [el]; omega
    have e2' : c2[c.length + 1]? = some (some (.str false, sf')) := by
      rw [h.frame _ (by rw [el]; omega) hj (by simp)]; exact e2 sf'
    refine EndsLike.bind (mkdirLoop_ends hj l.len 0 (by omega) c2 sf' w (h.forget (by rw [el]; omega)) e2') ?_
    rintro c3 w' w'' - ⟨rfl, h3, a3, e3⟩
    have hn : c.length ≠ (c1 sf').length := by rw [el]; omega
    have e1' : c3[c.length]? = some (some (.str false, s)) := by
      rw [h3.frame _ (by rw [el]; omega) hn (by simp)]; exact e1 sf'
    refine EndsLike.discard e1' (EndsLike.discard (x := (.str false, a3)) (by rw [List.getElem?_set_ne (by omega)]; exact e3) ?_)
    have h4 := (((h3.forget (t := c.length) (by rw [el]; omega)).setT (t := c.length) (by simp) hn none)).setT (t := c.length + 1) (by simp) hj none
    obtain ⟨c5, e5, l5, g5⟩ := freeList_plain (E := E) h4
    refine EndsLike.seq (Q := fun c' _ => c' = c5) (by rw [e5]; exact Or.inr ⟨_, _, rfl, rfl⟩) ?_
    rintro c' _ rfl
    refine EndsLike.ok ⟨rfl, ?_⟩
    have hlen3 := h3.len
    rw [el] at hlen3
    refine clean_of (by rw [l5]; simp; omega) ?_ ?_
    · intro i hi
      rw [g5, if_neg, List.getElem?_set_ne (by omega), List.getElem?_set_ne (by omega), h3.frame i (by rw [el]; omega) (by rw [el]; omega) (by simp; omega)]
      · simp only [c1]; rw [List.getElem?_append_left hi]
      · rintro (e | e)
        · rw [el] at e; omega
        · have := (h3.fresh i e).1; rw [el] at this; omega
    · intro i hi hi'
      rw [g5]
      split
      · rfl
      · rename_i hne
        simp only [not_or] at hne
        by_cases i1 : i = c.length + 1
        · subst i1; rw [List.getElem?_set_self (by simp; omega)]
        · rw [List.getElem?_set_ne (Ne.symm i1)]
          by_cases i2 : i = c.length
          · subst i2; rw [List.getElem?_set_self (by omega)]
          · rw [List.getElem?_set_ne (Ne.symm i2)]
            refine h3.rest i (by rw [el]; omega) hne.1 (by simp; omega) hne.2 ?_
            rw [l5] at hi'; simpa using hi'

theorem rmdirLoop_ends {E : Env} {c₀ : Contents} {p : Nat} {hs : List Nat} {L : List Arr} {t : List UInt8} :
    ∀ (k i : Nat), L.length - i < k → i ≤ L.length → ∀ (c : Contents) (w : Fs.World), Lists tr c₀ p i [] [] c hs L →
    EndsLike ((Own.rmdirLoop t p k w).plain E c) (Path.rmdirLoop t (L.drop i) w) fun c' r r' => r = r' ∧ ∃ sl, Lists tr c₀ p sl [] [] c' hs L
  | 0, i, hk, _, _, _, _ => by omega
  | k + 1, i, hk, hi, c, w, h => by
    unfold Own.rmdirLoop
    obtain ⟨a, cap, hpa, ha, hsl⟩ := h.list
    rw [List.nil_append] at ha
    obtain ⟨s1, s2⟩ := C09_plist_slide_front a _ ha
    have holds : ∀ n, PlHolds { a with slider := n } ⟨([] ++ hs).map ptrOf, cap⟩ := fun n =>
      ⟨⟨ha.wf.le, ha.wf.mem, ha.wf.es, ha.wf.cap, ha.wf.lim⟩, ha.es, ha.abs⟩
    by_cases hlt : i < L.length
    · obtain ⟨x, hx, hxc⟩ := h.item (List.getElem?_eq_getElem hlt)
      have hfr := h.fresh x (List.mem_of_getElem? hx)
      have e1 := s1 (by rw [hsl, List.length_map, h.length_eq]; exact hlt)
      have eq : (hs.map ptrOf)[a.slider]'(by rw [hsl, List.length_map, h.length_eq]; exact hlt) = ptrOf x := by
        have : (hs.map ptrOf)[i]? = some (ptrOf x) := by simp [hx]
        obtain ⟨g1, g2⟩ := List.getElem?_eq_some_iff.1 this
        simp only [hsl]
        exact g2
      rw [eq] at e1
      rw [List.drop_eq_getElem_cons hlt]
      unfold Path.rmdirLoop
      refine EndsLike.seq (Q := fun c' q => q = ptrOf x ∧ c' = c.set p (some (Tag.plist tr, { a with slider := a.slider + 1 })))
        (by rw [slide_plain hpa e1]; exact Or.inr ⟨_, _, rfl, rfl, rfl⟩) ?_
      rintro c' q ⟨rfl, rfl⟩
      rw [if_neg (ptrOf_ne hfr.2.2.2)]
      have h' := h.relist (holds (a.slider + 1))
      refine EndsLike.target hfr.2.2.2 (EndsLike.fields (k := .str tr) (a := L[i]) (by rw [List.getElem?_set_ne (Ne.symm hfr.2.1)]; exact hxc) ?_)
      refine EndsLike.same fun u _ => ?_
      dsimp only
      simp only [hsl] at h' ⊢
      generalize (if Path.isDir w u then Path.rmdir w u else Path.remove w u) = r
      split
      · exact rmdirLoop_ends k (i + 1) (by omega) (by omega) _ _ h'
      · exact EndsLike.ok ⟨rfl, _, h'⟩
    · have e2 := s2 (by rw [hsl, List.length_map, h.length_eq]; omega)
      rw [List.drop_of_length_le (by omega)]
      unfold Path.rmdirLoop
      refine EndsLike.seq (Q := fun c' q => q = 0 ∧ c' = c.set p (some (Tag.plist tr, { a with slider := 0 })))
        (by rw [slide_plain hpa e2]; exact Or.inr ⟨_, _, rfl, rfl, rfl⟩) ?_
      rintro c' q ⟨rfl, rfl⟩
      rw [if_pos rfl]
      exact EndsLike.ok ⟨rfl, _, h.relist (holds 0)⟩

theorem Lists.freed {c c1 c' : Contents} {sl : Nat} {hs : List Nat} {L : List Arr} (h : Lists tr c c.length sl [] [] c1 hs L) (hl : c'.length = c1.length)
    (g : ∀ j, c'[j]? = if j = c.length ∨ j ∈ hs then some none else c1[j]?) : Clean c c' := by
  have hlen := h.len
  refine clean_of (by omega) ?_ ?_
  · intro i hi
    rw [g, if_neg, h.frame i hi (by omega) (by simp)]
    rintro (e | e)
    · omega
    · have := (h.fresh i e).1; omega
  · intro i hi hi'
    rw [g]
    split
    · rfl
    · rename_i hne
      simp only [not_or] at hne
      exact h.rest i hi hne.1 (by simp) hne.2 (by omega)

/-- `vt_path_rmdir_recurse` leaves nothing behind. -/
theorem rmdirRecurse_ends {E : Env} {k : Nat} {w : Fs.World} {z : Mem} {c : Contents} :
    EndsLike ((Own.rmdirRecurse E k w z).plain E c) (Path.rmdirRecurse E k w z) fun c' r r' => r = r' ∧ Clean c c' := by
  have clean0 : Clean c c := ⟨0, by simp⟩
  unfold Own.rmdirRecurse Path.rmdirRecurse
  refine EndsLike.same fun t ht => ?_
  split
  · exact EndsLike.ok ⟨rfl, clean0⟩
  refine EndsLike.bind (dirListRecurse_ends k) ?_
  intro c1 r o _ hq
  cases o with
  | none =>
    obtain ⟨rfl, rfl⟩ := hq
    exact EndsLike.ok ⟨rfl, clean0⟩
  | some L =>
    obtain ⟨rfl, hs, h⟩ := hq
    dsimp only
    obtain ⟨l, cap, hpl, hlh, hsl⟩ := h.list
    have hll : l.len = L.length := by rw [hlh.len, ← h.length_eq]; simp
    refine EndsLike.fields hpl ?_
    have key : ∀ (o : Out (Fs.World × Bool)) (pr : Prog (Fs.World × Bool)),
        EndsLike (pr.plain E c1) o (fun c' r r' => r = r' ∧ ∃ sl, Lists false c c.length sl [] [] c' hs L) →
        EndsLike ((do let r ← pr; freeList E c.length; Prog.out (.ok r) : Prog (Fs.World × Bool)).plain E c1) o fun c' r r' => r = r' ∧ Clean c c' := by
      intro o pr hpr
      have e : o = (o >>= fun r => Out.ok r) := by cases o <;> rfl
      rw [e]
      refine EndsLike.bind hpr ?_
      rintro c2 r r' - ⟨rfl, sl, h2⟩
      obtain ⟨c5, e5, l5, g5⟩ := freeList_plain (E := E) h2
      refine EndsLike.seq (Q := fun c' _ => c' = c5) (by rw [e5]; exact Or.inr ⟨_, _, rfl, rfl⟩) ?_
      rintro c' _ rfl
      exact EndsLike.ok ⟨rfl, h2.freed l5 g5⟩
    cases L with
    | nil =>
      rw [if_pos (by rw [hll]; rfl)]
      exact key _ _ (EndsLike.ok ⟨rfl, 0, h⟩)
    | cons x L =>
      rw [if_neg (by rw [hll]; simp)]
      have := rmdirLoop_ends (E := E) (t := t) (l.len + 1) 0 (by omega) (Nat.zero_le _) c1 w h
      exact key _ _ this

/-! ### Joining -/

theorem joinLoop_ends {E : Env} {mem : Ptr → Mem} {sep : Mem} {p j cap : Nat} {l : Arr} {qs : List Ptr} (hl : PlHolds l ⟨qs, cap⟩) (hj : j ≠ p) :
    ∀ (k i : Nat), i + k = qs.length → ∀ (c : Contents) (st : Arr), c[p]? = some (some (.plist tl, l)) → c[j]? = some (some (.str tr, st)) →
    EndsLike ((Own.joinLoop E mem sep p j k i).plain E c) (Str.joinLoop E sep ((qs.drop i).map mem) st) fun c' _ st' => c' = c.set j (some (.str tr, st'))
  | 0, i, hi, c, st, hp, hst => by
    rw [List.drop_of_length_le (by omega)]
    refine EndsLike.ok ?_
    obtain ⟨h1, h2⟩ := List.getElem?_eq_some_iff.1 hst
    rw [← h2, List.set_getElem_self]
  | k + 1, i, hi, c, st, hp, hst => by
    have hlt : i < qs.length := by omega
    rw [List.drop_eq_getElem_cons hlt, List.map_cons]
    unfold Own.joinLoop Str.joinLoop
    refine EndsLike.call (cl := .append sep) hst rfl fun s1 _ => ?_
    have e1 : (c.set j (some (Tag.str tr, s1)))[j]? = some (some (.str tr, s1)) := List.getElem?_set_self (getElem?_lt hst)
    have p1 : (c.set j (some (Tag.str tr, s1)))[p]? = some (some (.plist tl, l)) := by rw [List.getElem?_set_ne hj]; exact hp
    refine EndsLike.get p1 hl (List.getElem?_eq_getElem hlt) ?_
    refine EndsLike.call (cl := .append _) e1 rfl fun s2 _ => ?_
    rw [List.set_set]
    refine (joinLoop_ends (tl := tl) (tr := tr) hl hj k (i + 1) (by omega) _ s2 ?_ ?_).mono ?_
    · rw [List.getElem?_set_ne hj]; exact hp
    · exact List.getElem?_set_self (getElem?_lt hst)
    · rintro c' _ b rfl
      rw [List.set_set]

/-- `vt_str_join` and `vt_path_build`: the list is only read. -/
theorem join_ends {E : Env} {mem : Ptr → Mem} {sep : Mem} {c : Contents} {s : Option Nat} {a : Option Arr} {p cap : Nat} {l : Arr} {qs : List Ptr}
    (hp : c[p]? = some (some (.plist tl, l))) (hl : PlHolds l ⟨qs, cap⟩) (hq : qs ≠ []) (hs : s.map (c[·]?) = a.map fun x => some (some (Tag.str tr, x))) :
    EndsLike ((Own.join E mem s sep p).plain E c) (Str.join E a sep (qs.map mem)) fun c' r st => match s with
      | none => r = c.length ∧ c' = c ++ [some (.str false, st)]
      | some j => r = j ∧ c' = c.set j (some (.str tr, st)) := by
  obtain ⟨q, qs', rfl⟩ := List.exists_cons_of_ne_nil hq
  have hlen : l.len = qs'.length + 1 := by rw [hl.len]; simp
  unfold Own.join Str.join
  have body : ∀ (tr : Bool) (j : Nat) (c : Contents) (st : Arr), j ≠ p → c[p]? = some (some (.plist tl, l)) → c[j]? = some (some (.str tr, st)) →
      EndsLike ((do
        let q ← Own.get E p 0
        Own.call j (.append (mem q))
        let l ← fields p
        Own.joinLoop E mem sep p j (l.len - 1) 1
        Prog.out (.ok j) : Prog Nat).plain E c)
      (do
        let st ← Str.append E st (mem q)
        Str.joinLoop E sep (qs'.map mem) st) fun c' r st => r = j ∧ c' = c.set j (some (.str tr, st)) := by
    intro tr j c st hj hp hst
    refine EndsLike.get hp hl (i := 0) (q := q) rfl ?_
    refine EndsLike.call (cl := .append _) hst rfl fun s1 _ => ?_
    refine EndsLike.fields (k := .plist tl) (a := l) (by rw [List.getElem?_set_ne hj]; exact hp) ?_
    have e : ∀ st, Str.joinLoop E sep (qs'.map mem) st = (Str.joinLoop E sep (qs'.map mem) st >>= fun r => Out.ok r) := by
      intro st; cases Str.joinLoop E sep (qs'.map mem) st <;> rfl
    rw [e]
    refine EndsLike.bind (joinLoop_ends (mem := mem) (sep := sep) (E := E) hl hj (l.len - 1) 1 (by rw [hlen]; simp; omega) _ s1
      (by rw [List.getElem?_set_ne hj]; exact hp) (List.getElem?_set_self (getElem?_lt hst))) ?_
    rintro c' _ b - rfl
    exact EndsLike.ok ⟨rfl, by rw [List.set_set]⟩
  cases s with
  | none =>
    cases a with
    | some x => cases hs
    | none =>
      dsimp only
      refine EndsLike.make (m := .strCapacity defaultInit) fun st _ => ?_
      have hlt := getElem?_lt hp
      refine (body false c.length _ st (by omega) (by rw [List.getElem?_append_left hlt]; exact hp) (by simp [Make.kind, Tag.str, Tag.plist])).mono ?_
      rintro c' r b ⟨rfl, rfl⟩
      exact ⟨rfl, by simp⟩
  | some j =>
    cases a with
    | none => cases hs
    | some x =>
      have hs' : c[j]? = some (some (Tag.str tr, x)) := by simpa using hs
      have hj : j ≠ p := by
        rintro rfl
        rw [hs'] at hp
        simp [Tag.str, Tag.plist] at hp
      exact body tr j c x hj hp hs'

theorem pushAll_ends {E : Env} {p : Nat} : ∀ (qs : List Ptr), (∀ q ∈ qs, q ≠ 0) → ∀ (c : Contents) (l : Arr) (l0 : List Ptr) (cap : Nat),
    c[p]? = some (some (.plist tr, l)) → PlHolds l ⟨l0, cap⟩ →
    EndsLike ((Own.pushAll p qs).plain E c) (.ok ()) fun c' _ _ => ∃ l' cap', c' = c.set p (some (.plist tr, l')) ∧ PlHolds l' ⟨l0 ++ qs, cap'⟩
  | [], _, c, l, l0, cap, hp, hl => by
    refine EndsLike.ok ⟨l, cap, ?_, by simpa using hl⟩
    obtain ⟨h1, h2⟩ := List.getElem?_eq_some_iff.1 hp
    rw [← h2, List.set_getElem_self]
  | q :: qs, hq, c, l, l0, cap, hp, hl => by
    unfold Own.pushAll
    refine EndsLike.list hp rfl ?_
    rcases plPush_any (E := E) hl (hq q (by simp)) with e | ⟨b, cap', e, hb, -⟩
    · exact Or.inl e
    · refine Or.inr ⟨b, e, (pushAll_ends qs (fun x hx => hq x (by simp [hx])) _ b _ cap' (List.getElem?_set_self (getElem?_lt hp)) hb).mono ?_⟩
      rintro c' _ _ ⟨l', cap'', rfl, hl'⟩
      exact ⟨l', cap'', by rw [List.set_set], by simpa using hl'⟩

/-- `vt_path_build_n`: the temporary list is gone. -/
theorem buildN_ends {E : Env} {mem : Ptr → Mem} {c : Contents} {s : Option Nat} {a : Option Arr} {qs : List Ptr}
    (hq : qs ≠ []) (hq0 : ∀ q ∈ qs, q ≠ 0) (hsz : qs.length * 8 < 2 ^ 64) (hs : s.map (c[·]?) = a.map fun x => some (some (Tag.str tr, x))) :
    EndsLike ((Own.buildN E mem s qs).plain E c) (Path.buildN E a (qs.map mem)) fun c' r st => match s with
      | none => r = c.length + 1 ∧ c' = c ++ [none, some (.str false, st)]
      | some j => r = j ∧ c' = c.set j (some (.str tr, st)) ++ [none] := by
  have hpos : 0 < qs.length := List.length_pos_iff.2 hq
  unfold Own.buildN Path.buildN
  have mk : ∀ {g : Out Arr}, (dassert E ((qs.map mem).length > 0) >>= fun _ => vtCalloc E arrStructSize >>= fun _ =>
      vtCalloc E (wmul (qs.map mem).length 8) >>= fun _ => g) = (Plist.create E qs.length >>= fun _ => g) := by
    intro g
    unfold Plist.create
    simp only [bind_assoc, bind_ok, List.length_map]
  rw [mk]
  have key : ∀ tl l, (Plist.create E qs.length = .ok l) → EndsLike ((do
        Own.pushAll c.length qs
        let st ← Own.join E mem s Path.sepZ c.length
        Own.discard c.length
        Prog.out (.ok st) : Prog Nat).plain E (c ++ [some (Tag.plist tl, l)])) (Path.build E a (qs.map mem)) fun c' r st => match s with
      | none => r = c.length + 1 ∧ c' = c ++ [none, some (.str false, st)]
      | some j => r = j ∧ c' = c.set j (some (.str tr, st)) ++ [none] := by
    intro tl l el
    rcases plCreate_any (E := E) hpos hsz with e | ⟨l', e, hl, h0⟩
    · rw [el] at e; cases e
    rw [el] at e
    injection e with e
    subst e
    refine EndsLike.seq (pushAll_ends (tr := tl) qs hq0 _ l [] _ (by simp) hl) ?_
    rintro c1 _ ⟨l', cap', rfl, hl'⟩
    rw [List.nil_append] at hl'
    unfold Path.build
    have e : ∀ o : Out Arr, o = (o >>= fun r => Out.ok r) := by intro o; cases o <;> rfl
    rw [e (Str.join E a Path.sepZ (qs.map mem)), set_last]
    have hs' : s.map ((c ++ [some (Tag.plist tl, l')])[·]?) = a.map fun x => some (some (Tag.str tr, x)) := by
      cases s with
      | none => exact hs
      | some j =>
        cases a with
        | none => cases hs
        | some x =>
          have : c[j]? = some (some (Tag.str tr, x)) := by simpa using hs
          simp [List.getElem?_append_left (getElem?_lt this), this]
    refine EndsLike.bind (join_ends (tl := tl) (by simp) hl' hq hs') ?_
    intro c2 r st _ hr
    cases s with
    | none =>
      obtain ⟨rfl, rfl⟩ := hr
      refine EndsLike.discard (x := (Tag.plist tl, l')) (by simp) (EndsLike.ok ?_)
      simp
    | some j =>
      obtain ⟨rfl, rfl⟩ := hr
      cases a with
      | none => cases hs
      | some x =>
        have hj : c[r]? = some (some (Tag.str tr, x)) := by simpa using hs
        have hlt := getElem?_lt hj
        refine EndsLike.discard (x := (Tag.plist tl, l')) (by rw [List.getElem?_set_ne (by omega)]; simp) (EndsLike.ok ⟨rfl, ?_⟩)
        rw [List.set_append_left _ _ hlt]
        simp [List.set_append]
  cases s with
  | none => exact EndsLike.make (m := .plist qs.length) fun l el => key _ l el
  | some j =>
    cases a with
    | none => cases hs
    | some x =>
      have hj : c[j]? = some (some (Tag.str tr, x)) := by simpa using hs
      exact EndsLike.makeLike (m := .plist qs.length) hj fun l el => key _ l el

/-! ### Files and parts of strings -/

/-- `vt_file_read`: one string, or nothing. -/
theorem fileRead_ends {E : Env} {c : Contents} {w : Fs.World} {z : Mem} {tr : Bool} :
    EndsLike ((Own.fileRead w z tr).plain E c) (FileIo.read E w z) fun c' r o => match o with
      | none => r = none ∧ Clean c c'
      | some st => r = some c.length ∧ c' = c ++ [some (.str tr, st)] := by
  unfold Own.fileRead FileIo.read
  refine EndsLike.same fun t _ => ?_
  cases Fs.openR w t with
  | none => exact EndsLike.ok ⟨rfl, 0, by simp⟩
  | some d =>
    dsimp only
    split
    · exact EndsLike.ok ⟨rfl, 0, by simp⟩
    refine EndsLike.make (m := .strLen _) fun a _ => ?_
    refine EndsLike.fields (k := .str tr) (a := a) (by simp [Make.kind, Tag.str, Tag.plist]) ?_
    have e : FileIo.fread a.mem a.len d = ((Call.fread d).run E a >>= fun b => Out.ok (min a.len d.length, b.mem)) := by
      unfold FileIo.fread
      show _ = ((writeN a.mem 0 ((d.take a.len).map some) >>= fun m => Out.ok { a with mem := m }) >>= _)
      rw [bind_assoc]
      rfl
    have e2 : ∀ b, (Call.fread d).run E a = .ok b → b = { a with mem := b.mem } := by
      intro b hb
      have hb' : (writeN a.mem 0 ((d.take a.len).map some) >>= fun m => Out.ok { a with mem := m }) = .ok b := hb
      obtain ⟨m, _, h2⟩ := bind_eq_ok.1 hb'
      injection h2 with h2
      subst h2
      rfl
    rw [e, bind_assoc]
    refine EndsLike.call (k := .str tr) (cl := .fread d) (by simp [Make.kind, Tag.str, Tag.plist]) rfl fun b hb => ?_
    rw [bind_ok, set_last]
    dsimp only
    split
    · refine EndsLike.discard (x := (Tag.str tr, b)) (by simp) (EndsLike.ok ⟨rfl, 1, ?_⟩)
      simp
    · refine EndsLike.ok ⟨rfl, ?_⟩
      rw [← e2 b hb]

theorem popBody_ends {E : Env} {c : Contents} {x s n : Nat} {a xa : Arr} {z : Mem} {g : Arr → Nat} {i0 k0 : Nat}
    (hx : c[x]? = some (some (.str td, xa))) (hs : c[s]? = some (some (.str tr, a))) (hne : x ≠ s) :
    EndsLike ((do
      let b ← fields x
      let _ ← (if b.len < n then Own.call x (.reserve (g b)) else Prog.out (.ok ()))
      Own.call x .clear
      Own.call x (.appendN z n)
      Own.call s (.remove i0 k0)
      Prog.out (.ok (some x)) : Prog (Option Nat)).plain E c)
    (do
      let b ← (if xa.len < n then Str.reserve E xa (g xa) else .ok xa)
      let b ← Str.clear b
      let b ← Str.appendN E b z n
      let a ← Str.remove E a i0 k0
      Out.ok (some b, a)) fun c' r o => r = some x ∧ ∃ b, o.1 = some b ∧ c' = (c.set x (some (.str td, b))).set s (some (.str tr, o.2)) := by
  refine EndsLike.fields hx ?_
  have hlt := getElem?_lt hx
  have hlts := getElem?_lt hs
  refine EndsLike.bind (Q := fun c' _ b => c' = c.set x (some (.str td, b))) ?_ ?_
  · split
    · exact EndsLike.call_last (cl := .reserve _) hx rfl
    · refine EndsLike.ok ?_
      obtain ⟨h1, h2⟩ := List.getElem?_eq_some_iff.1 hx
      rw [← h2, List.set_getElem_self]
  rintro c1 _ b - rfl
  refine EndsLike.call (cl := .clear) (List.getElem?_set_self hlt) rfl fun b1 _ => ?_
  rw [List.set_set]
  refine EndsLike.call (cl := .appendN z n) (List.getElem?_set_self hlt) rfl fun b2 _ => ?_
  rw [List.set_set]
  refine EndsLike.call (k := .str tr) (cl := .remove i0 k0) (by rw [List.getElem?_set_ne hne]; exact hs) rfl fun a' _ => ?_
  exact EndsLike.ok ⟨rfl, _, rfl, rfl⟩

theorem pop_choose {E : Env} {c : Contents} {sr : Option Nat} {x : Option Arr} {s n : Nat} {a : Arr} {z : Mem} {g : Arr → Nat} {i0 k0 : Nat}
    (hx : sr.map (c[·]?) = x.map fun x => some (some (Tag.str td, x))) (hs : c[s]? = some (some (.str tr, a))) (hne : sr ≠ some s) :
    EndsLike ((do
      let x ← (match sr with
        | none => Own.make false (.strLen n)
        | some x => Prog.out (.ok x))
      let b ← fields x
      let _ ← (if b.len < n then Own.call x (.reserve (g b)) else Prog.out (.ok ()))
      Own.call x .clear
      Own.call x (.appendN z n)
      Own.call s (.remove i0 k0)
      Prog.out (.ok (some x)) : Prog (Option Nat)).plain E c)
    (do
      let b ← (match x with
        | none => Str.createLen E n
        | some x => .ok x)
      let b ← (if b.len < n then Str.reserve E b (g b) else .ok b)
      let b ← Str.clear b
      let b ← Str.appendN E b z n
      let a ← Str.remove E a i0 k0
      Out.ok (some b, a)) (Popped c tr td s sr x) := by
  have hlts := getElem?_lt hs
  cases sr with
  | none =>
    cases x with
    | some x => cases hx
    | none =>
      dsimp only
      refine EndsLike.make (m := .strLen n) fun b _ => ?_
      refine (popBody_ends (td := false) (x := c.length) (xa := b) (by simp [Make.kind, Tag.str, Tag.plist]) (by rw [List.getElem?_append_left hlts]; exact hs) (by omega)).mono ?_
      rintro c' r o ⟨rfl, b', hb, rfl⟩
      refine Or.inr ⟨b', hb, rfl, ?_⟩
      rw [set_last, List.set_append_left _ _ hlts]
  | some j =>
    cases x with
    | none => cases hx
    | some x =>
      have hj : c[j]? = some (some (Tag.str td, x)) := by simpa using hx
      refine (popBody_ends hj hs (by rintro rfl; exact hne rfl)).mono ?_
      rintro c' r o ⟨rfl, b', hb, rfl⟩
      exact Or.inr ⟨b', hb, rfl, rfl⟩

theorem set_same {c : Contents} {s : Nat} {o : Tag × Arr} (h : c[s]? = some (some o)) : c = c.set s (some o) := by
  obtain ⟨h1, h2⟩ := List.getElem?_eq_some_iff.1 h
  rw [← h2, List.set_getElem_self]

theorem popGetFirst_ends {E : Env} {c : Contents} {sr : Option Nat} {x : Option Arr} {s : Nat} {a : Arr} {sep : Mem}
    (hx : sr.map (c[·]?) = x.map fun x => some (some (Tag.str td, x))) (hs : c[s]? = some (some (.str tr, a))) (hne : sr ≠ some s) :
    EndsLike ((Own.popGetFirst sr s sep).plain E c) (Str.popGetFirst E x a sep) (Popped c tr td s sr x) := by
  have keep : Popped c tr td s sr x c sr (x, a) := Or.inl ⟨rfl, rfl, set_same hs⟩
  unfold Own.popGetFirst Str.popGetFirst
  refine EndsLike.same fun n _ => EndsLike.fields hs ?_
  split
  · exact EndsLike.ok keep
  refine EndsLike.same fun t _ => ?_
  cases t with
  | none => exact EndsLike.ok keep
  | some i =>
    refine EndsLike.same fun tl _ => ?_
    dsimp only
    split
    · exact EndsLike.ok keep
    exact pop_choose hx hs hne

theorem popGetLast_ends {E : Env} {c : Contents} {sr : Option Nat} {x : Option Arr} {s k : Nat} {a : Arr} {sep : Mem}
    (hx : sr.map (c[·]?) = x.map fun x => some (some (Tag.str td, x))) (hs : c[s]? = some (some (.str tr, a))) (hne : sr ≠ some s) :
    EndsLike ((Own.popGetLast k sr s sep).plain E c) (Str.popGetLast E k x a sep) (Popped c tr td s sr x) := by
  have keep : Popped c tr td s sr x c sr (x, a) := Or.inl ⟨rfl, rfl, set_same hs⟩
  unfold Own.popGetLast Str.popGetLast
  refine EndsLike.same fun n _ => EndsLike.fields hs ?_
  split
  · exact EndsLike.ok keep
  refine EndsLike.same fun t _ => ?_
  cases t with
  | none => exact EndsLike.ok keep
  | some i =>
    refine EndsLike.same fun l _ => EndsLike.same fun tl _ => ?_
    dsimp only
    split
    · exact EndsLike.ok keep
    exact pop_choose hx hs hne

end Vita
