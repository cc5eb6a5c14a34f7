import Verif.Lemmas.StrQuery
/-! Lemmas on splitting, joining and popping fields. -/

namespace Vita
open Out Spec

seal wadd wsub wmul

/-! ### Splitting -/

theorem begins_drop_take {m : Mem} {t : Text} (h : scanZ m = .ok t) {i : Nat} (hi : i ≤ t.length) (n : Nat) :
    Begins (m.drop i) ((t.drop i).take n) := (begins_of_scanZ (scanZ_drop h hi)).take n

theorem nz_drop {t : Text} (h : 0 ∉ t) (i : Nat) : 0 ∉ t.drop i := fun hh => h (List.mem_of_mem_drop hh)
theorem nz_take {t : Text} (h : 0 ∉ t) (i : Nat) : 0 ∉ t.take i := fun hh => h (List.mem_of_mem_take hh)

/-- One piece of `split`. -/
theorem piece_okOr {E : Env} {m : Mem} {t : Text} (h : scanZ m = .ok t) (hl : t.length < 2 ^ 56) {head n : Nat} (hn : 0 < n)
    (hh : head + n ≤ t.length) {β : Type} {f : Arr → Out β} {Q : β → Prop} {B : Nat}
    (hf : ∀ v, IsStr v ((t.drop head).take n) → OkOr E B (f v) Q) (hB : n + 56 ≤ B) :
    OkOr E B (do let x ← Str.createLen E n; let x ← Str.setN E x (m.drop head) n; f x) Q := by
  refine (createLen_okOr hn (by omega)).bind fun v hv => ?_
  have hy := nz_take (nz_drop (scanZ_eq_ok.1 h).2 head) n
  have e : ((t.drop head).take n).length = n := by simp; omega
  obtain ⟨v', e', s', -⟩ := setN_ok (E := E) hv.1 hy (begins_drop_take h (by omega) n) (Or.inl (by omega)) (by simp; omega)
  rw [e] at e'
  rw [e', bind_ok]
  exact hf v' s'

theorem splitLoop_okOr {E : Env} {m sep : Mem} {t ss : Text} (h : scanZ m = .ok t) (hl : t.length < 2 ^ 56)
    (hs : scanZ sep = .ok ss) (h0 : ss ≠ []) :
    ∀ (k head : Nat) (acc : List Arr), head < t.length → t.length < k + head →
      ¬ [[], []] <:+ pieces (t.drop head) ss →
      OkOr E (t.length + 56) (Str.splitLoop E m sep ss.length k head acc) fun r => ∃ l, r = acc ++ l ∧
        List.Forall₂ IsStr l ((pieces (t.drop head) ss).filter (· ≠ []))
  | 0, head, acc, h1, h2, _ => by omega
  | k + 1, head, acc, h1, h2, h3 => by
    have hz0 : 0 < ss.length := List.length_pos_iff.2 h0
    have hne : t.drop head ≠ [] := by simp; omega
    rw [Str.splitLoop, strstrAt_ok h hs (by omega), bind_ok, strlenAt_ok h (by omega), bind_ok]
    rcases exists_first_or_none (t.drop head) ss with ⟨i, hi, e⟩ | ⟨hno, e⟩
    · have hle := hi.1.le
      have hp := pieces_first h0 hi
      simp only [List.length_drop] at hle
      simp only [e, Option.map_some, strlenAt_ok h (show head + i ≤ t.length by omega), bind_ok]
      rw [wsub_eq (by omega) (by omega), show t.length - head - (t.length - (head + i)) = i by omega]
      rw [hp] at h3
      rw [hp]
      have hd : (t.drop head).drop (i + ss.length) = t.drop (head + i + ss.length) := by
        rw [List.drop_drop]; congr 1; omega
      by_cases hi0 : i = 0
      · subst hi0
        rw [if_pos rfl]
        have hlt : head + ss.length < t.length := by
          by_contra hc
          refine h3 ?_
          rw [hd, List.drop_eq_nil_of_le (show t.length ≤ head + 0 + ss.length by omega)]
          simp [pieces, piecesGo]
        have ih := splitLoop_okOr (E := E) h hl hs h0 k (head + ss.length) acc hlt (by omega)
          (by rw [hd] at h3; exact fun hc => h3 (hc.trans (List.suffix_cons _ _)))
        refine ih.mono ?_
        rintro r ⟨l, e1, e2⟩
        refine ⟨l, e1, ?_⟩
        rw [hd]
        simpa using e2
      · rw [if_neg hi0]
        refine piece_okOr h hl (by omega) (by omega) (fun v hv => ?_) (by omega)
        have hf : ((t.drop head).take i :: pieces ((t.drop head).drop (i + ss.length)) ss).filter (· ≠ []) =
            (t.drop head).take i :: (pieces (t.drop (head + i + ss.length)) ss).filter (· ≠ []) := by
          rw [List.filter_cons_of_pos (by simp; omega), hd]
        simp only [hf]
        rcases Nat.lt_or_ge (head + i + ss.length) t.length with hlt | hge
        · rw [getc_text h hlt, bind_ok, if_neg ?_]
          · have ih := splitLoop_okOr (E := E) h hl hs h0 k (head + i + ss.length) (acc ++ [v]) hlt (by omega)
              (by rw [hd] at h3; exact fun hc => h3 (hc.trans (List.suffix_cons _ _)))
            refine ih.mono ?_
            rintro r ⟨l, e1, e2⟩
            exact ⟨v :: l, by simp [e1], .cons hv e2⟩
          · intro hc
            exact (scanZ_eq_ok.1 h).2 (hc ▸ List.getElem_mem hlt)
        · rw [show head + i + ss.length = t.length by omega, getc_end h, bind_ok, if_pos rfl]
          refine OkOr.ok ⟨[v], rfl, .cons hv ?_⟩
          simp [pieces, piecesGo]
    · simp only [e, Option.map_none, bind_ok]
      rw [wsub_eq (by omega) (by omega), Nat.sub_zero, if_neg (by omega)]
      refine piece_okOr h hl (by omega) (by omega) (fun v hv => ?_) (by omega)
      refine OkOr.ok ⟨[v], rfl, ?_⟩
      rw [pieces_none hno, List.filter_cons_of_pos (by simpa using hne)]
      rw [List.take_of_length_le (by simp)] at hv
      exact .cons hv (by simp)

/-- A text ending in two empty pieces makes `split` run over the end of an exactly sized buffer. -/
theorem splitLoop_ub {E : Env} {m sep : Mem} {t ss : Text} (h : scanZ m = .ok t) (hl : t.length < 2 ^ 56)
    (hm : m.length = t.length + 1) (hs : scanZ sep = .ok ss) (h0 : ss ≠ []) :
    ∀ (k head : Nat) (acc : List Arr), head ≤ t.length → t.length + 1 < k + head →
      (head = t.length ∨ [[], []] <:+ pieces (t.drop head) ss) →
      Str.splitLoop E m sep ss.length k head acc = .ub ∨
        (Str.splitLoop E m sep ss.length k head acc = .exit .alloc ∧ E.Refuses (t.length + 56))
  | 0, head, acc, h1, h2, _ => by omega
  | k + 1, head, acc, h1, h2, h3 => by
    have hz0 : 0 < ss.length := List.length_pos_iff.2 h0
    rw [Str.splitLoop, strstrAt_ok h hs (by omega), bind_ok, strlenAt_ok h (by omega), bind_ok]
    rcases exists_first_or_none (t.drop head) ss with ⟨i, hi, e⟩ | ⟨hno, e⟩
    · have hle := hi.1.le
      have hp := pieces_first h0 hi
      simp only [List.length_drop] at hle
      simp only [e, Option.map_some, strlenAt_ok h (show head + i ≤ t.length by omega), bind_ok]
      rw [wsub_eq (by omega) (by omega), show t.length - head - (t.length - (head + i)) = i by omega]
      have h3 := h3.resolve_left (by omega)
      rw [hp] at h3
      have hd : (t.drop head).drop (i + ss.length) = t.drop (head + i + ss.length) := by
        rw [List.drop_drop]; congr 1; omega
      have hsuf : head + i + ss.length = t.length ∨ [[], []] <:+ pieces (t.drop (head + i + ss.length)) ss := by
        rw [hd] at h3
        rcases List.suffix_cons_iff.1 h3 with hc | hc
        · left
          have : pieces (t.drop (head + i + ss.length)) ss = [[]] := by
            have := congrArg List.tail hc
            simpa using this.symm
          by_contra hne
          rcases exists_first_or_none (t.drop (head + i + ss.length)) ss with ⟨j, hj, -⟩ | ⟨hj, -⟩
          · rw [pieces_first h0 hj] at this
            have := congrArg List.length this
            obtain ⟨x, y, hxy, -⟩ := pieces_acc (sep := ss) ((t.drop (head + i + ss.length)).drop (j + ss.length)) []
            rw [pieces, hxy] at this
            simp at this
          · rw [pieces_none hj] at this
            simp at this
            omega
        · exact Or.inr hc
      by_cases hi0 : i = 0
      · subst hi0
        rw [if_pos rfl]
        exact splitLoop_ub h hl hm hs h0 k (head + ss.length) acc (by omega) (by omega) (by simpa using hsuf)
      · rw [if_neg hi0]
        have hlt : head + i + ss.length < t.length := by
          by_contra hge
          rw [hd, List.drop_eq_nil_of_le (show t.length ≤ head + i + ss.length by omega)] at h3
          have : [[], []] = [(t.drop head).take i, []] := by
            have h4 := List.IsSuffix.eq_of_length h3 (by simp [pieces, piecesGo])
            simpa [pieces, piecesGo] using h4
          have : (t.drop head).take i = [] := by
            have := congrArg List.head? this
            simpa using this.symm
          have := congrArg List.length this
          simp at this
          omega
        have hg : ∀ v, (do
            let x ← getc m (head + i + ss.length)
            if x = 0 then Out.ok (acc ++ [v]) else Str.splitLoop E m sep ss.length k (head + i + ss.length) (acc ++ [v])) =
            Str.splitLoop E m sep ss.length k (head + i + ss.length) (acc ++ [v]) := by
          intro v
          rw [getc_text h hlt, bind_ok, if_neg]
          intro hc
          exact (scanZ_eq_ok.1 h).2 (hc ▸ List.getElem_mem hlt)
        simp only [hg]
        rcases createLen_okOr (E := E) (show 0 < i by omega) (by omega) with ⟨v, ev, hv⟩ | ⟨ev, hv⟩
        · have hy := nz_take (nz_drop (scanZ_eq_ok.1 h).2 head) i
          have e2 : ((t.drop head).take i).length = i := by simp; omega
          obtain ⟨v', e', s', -⟩ := setN_ok (E := E) hv.1 hy (begins_drop_take h (by omega) i) (Or.inl (by omega)) (by simp; omega)
          rw [e2] at e'
          simp only [ev, bind_ok, e']
          exact splitLoop_ub h hl hm hs h0 k (head + i + ss.length) (acc ++ [v']) (by omega) (by omega) hsuf
        · right
          exact ⟨by rw [ev, bind_exit], hv.le (by omega)⟩
    · have hend : head = t.length := by
        rcases h3 with h3 | h3
        · exact h3
        · rw [pieces_none hno] at h3
          have := h3.length_le
          simp at this
      simp only [e, Option.map_none, bind_ok]
      rw [wsub_eq (by omega) (by omega), if_pos (by omega)]
      left
      cases k with
      | zero => omega
      | succ k =>
        rw [Str.splitLoop]
        have : strstrAt m (head + ss.length) sep = .ub := by
          unfold strstrAt
          have : cstrAt m (head + ss.length) = .ub := by
            unfold cstrAt
            rw [List.drop_eq_nil_of_le (by omega)]
            simp [scanZ]
          rw [this, bind_ub]
        rw [this, bind_ub]

theorem joinWith_pieces {ss : Text} (h0 : ss ≠ []) : ∀ (n : Nat) (t : Text), t.length ≤ n → joinWith ss (pieces t ss) = t := by
  intro n
  induction n with
  | zero =>
    intro t ht
    have : t = [] := List.length_eq_zero_iff.1 (by omega)
    subst this
    simp [pieces, piecesGo, joinWith]
  | succ n ih =>
    intro t ht
    have hz0 : 0 < ss.length := List.length_pos_iff.2 h0
    rcases exists_first_or_none t ss with ⟨i, hi, -⟩ | ⟨hno, -⟩
    · have hle := hi.1.le
      rw [pieces_first h0 hi]
      have ih' := ih (t.drop (i + ss.length)) (by simp; omega)
      obtain ⟨x, y, hxy, -⟩ := pieces_acc (sep := ss) (t.drop (i + ss.length)) []
      have hxy : pieces (t.drop (i + ss.length)) ss = x :: y := hxy
      rw [hxy] at ih' ⊢
      rw [joinWith, ih', ← hi.1.eq]
    · rw [pieces_none hno]
      rfl

/-! ### Joining -/

theorem joinLoop_okOr {E : Env} {sep : Mem} {ss : Text} (hs : CStr sep ss) (h0 : ss ≠ []) :
    ∀ {ps : List Mem} {ts : List Text} {v : Arr} {t : Text}, List.Forall₂ CStr ps ts → (∀ x ∈ ts, x ≠ []) →
      IsStr v t → OkOr E (t.length + (ts.map (ss ++ ·)).flatten.length + 1) (Str.joinLoop E sep ps v) fun v' => IsStr v' (t ++ (ts.map (ss ++ ·)).flatten) := by
  intro ps ts v t h
  induction h generalizing v t with
  | nil => intro _ hv; exact OkOr.ok (by simpa using hv)
  | cons hz _ ih =>
    intro hne hv
    rw [Str.joinLoop]
    refine (append_okOr hv hs h0).bind fun v1 h1 => ?_
    refine (append_okOr h1.1 hz (hne _ (by simp))).bind fun v2 h2 => ?_
    refine (ih (fun x hx => hne x (by simp [hx])) h2.1).mono fun v3 h3 => ?_
    simpa using h3

theorem joinWith_cons (ss a : Text) : ∀ ts : List Text, joinWith ss (a :: ts) = a ++ (ts.map (ss ++ ·)).flatten
  | [] => by simp [joinWith]
  | b :: ts => by rw [joinWith, joinWith_cons ss b ts]; simp

theorem join_okOr {E : Env} {sep : Mem} {ss : Text} (hs : CStr sep ss) (h0 : ss ≠ []) {ps : List Mem} {ts : List Text}
    (h : List.Forall₂ CStr ps ts) (hne : ∀ x ∈ ts, x ≠ []) (h1 : ts ≠ []) {v : Arr} {t : Text} (hv : IsStr v t) :
    OkOr E (t.length + (joinWith ss ts).length + 1) (Str.join E (some v) sep ps) fun v' => IsStr v' (t ++ joinWith ss ts) := by
  cases h with
  | nil => exact absurd rfl h1
  | cons hz hr =>
    simp only [Str.join, bind_ok]
    rw [joinWith_cons]
    refine (append_okOr hv hz (hne _ (by simp))).bind fun v1 h2 => ?_
    refine (joinLoop_okOr hs h0 hr (fun x hx => hne x (by simp [hx])) h2.1).mono fun v3 h3 => ?_
    simpa using h3

theorem join_none {E : Env} (sep : Mem) (ps : List Mem) :
    Str.join E none sep ps = (Str.createCapacity E defaultInit >>= fun v => Str.join E (some v) sep ps) := rfl

theorem joinNLoop_okOr {E : Env} {sep : Mem} {ss : Text} (hs : CStr sep ss) (h0 : ss ≠ []) :
    ∀ {ps : List Mem} {ts : List Text} {v : Arr} {t : Text}, List.Forall₂ CStr ps ts → (∀ x ∈ ts, x ≠ []) →
      IsStr v t → OkOr E (t.length + (joinWith ss ts).length + 1) (Str.joinNLoop E sep ps v) fun v' => IsStr v' (t ++ joinWith ss ts) := by
  intro ps ts v t h
  induction h generalizing v t with
  | nil => intro _ hv; exact OkOr.ok (by simpa [joinWith] using hv)
  | cons hz hr ih =>
    intro hne hv
    cases hr with
    | nil =>
      rw [Str.joinNLoop]
      exact (append_okOr hv hz (hne _ (by simp))).mono (fun _ h => by simpa [joinWith] using h.1) (by simp [joinWith])
    | cons hz' hr' =>
      rw [Str.joinNLoop]
      · rw [joinWith]
        refine (append_okOr hv hz (hne _ (by simp))).bind fun v1 h1 => ?_
        refine (append_okOr h1.1 hs h0).bind fun v2 h2 => ?_
        refine (ih (fun x hx => hne x (List.mem_cons_of_mem _ hx)) h2.1).mono fun v3 h3 => ?_
        simpa [joinWith] using h3
      · simp

/-! ### Between two markers -/

theorem resize_okOr {E : Env} {v : Arr} {t : Text} (h : IsStr v t) {n : Nat} (h1 : 0 < n) (hn : n < 2 ^ 63) :
    OkOr E (n + 1) (Str.resize E v n) fun v' => IsStr v' (t.take n) ∧ v'.cap = n := by
  by_cases ha : E.allocOk (n + 1) = true
  · obtain ⟨v', e, s, c, -⟩ := resize_ok h hn (Or.inl h1) ha
    exact Or.inl ⟨v', e, s, c⟩
  · simp only [Bool.not_eq_true] at ha
    exact Or.inr ⟨resize_fail h hn h1 ha, _, Nat.le_refl _, ha⟩

theorem reserve_okOr {E : Env} {v : Arr} {t : Text} (h : IsStr v t) {n : Nat} (h1 : 0 < n) (hn : n < 2 ^ 63) :
    OkOr E (v.cap + n + 1) (Str.reserve E v n) fun v' => IsStr v' t ∧ v'.cap = v.cap + n := by
  by_cases ha : E.allocOk (v.cap + n + 1) = true
  · obtain ⟨v', e, s, c, -⟩ := str_reserve_ok h h1 hn ha
    exact Or.inl ⟨v', e, s, c⟩
  · simp only [Bool.not_eq_true] at ha
    exact Or.inr ⟨str_reserve_fail h h1 hn ha, _, Nat.le_refl _, ha⟩

theorem strstr0 {m z : Mem} {t zs : Text} (h : scanZ m = .ok t) (hz : scanZ z = .ok zs) :
    strstrAt m 0 z = .ok (findSub t zs) := by
  rw [strstrAt_ok h hz (Nat.zero_le _)]
  simp

theorem splitBetween_some_okOr {E : Env} {z zl zr : Mem} {t a b : Text} (hz : CStr z t) (ha : CStr zl a) (hb : CStr zr b)
    {l r : Nat} (hl : IsFirst t a l) (hr : IsFirst t b r) (hlr : l + a.length < r) {s : Option Arr}
    (hs : ∀ v, s = some v → ∃ u, IsStr v u) :
    OkOr E (t.length + 72) (Str.splitBetween E s z zl zr) fun o => ∃ v, o = some v ∧
      IsStr v ((t.drop (l + a.length)).take (r - (l + a.length))) := by
  have hle := hr.1.le
  have hlim := hz.lim
  simp only [Str.splitBetween, strstr0 hz.text ha.text, strstr0 hz.text hb.text, findSub_some.2 hl, findSub_some.2 hr, bind_ok]
  have hst : OkOr E 72 (match s with
      | none => Str.createCapacity E defaultInit
      | some s => .ok s) fun v => ∃ u, IsStr v u := by
    cases s with
    | none => exact (createCapacity_okOr (by decide) (by decide)).mono fun v h => ⟨_, h.1⟩
    | some v => exact OkOr.ok (hs v rfl)
  refine hst.bind ?_
  rintro v ⟨u, hu⟩
  obtain ⟨v1, e1, s1, -⟩ := clear_ok hu
  have w : wsub (r - l) a.length = r - (l + a.length) := by rw [wsub_eq (by omega) (by omega)]; omega
  have w2 : wsub r (r - (l + a.length)) = l + a.length := by rw [wsub_eq (by omega) (by omega)]; omega
  rw [e1, bind_ok, if_pos (by omega), strlen_ok ha.text, bind_ok, w, w2]
  refine (resize_okOr s1 (by omega) (by omega)).bind fun v2 h2 => ?_
  have e : ((t.drop (l + a.length)).take (r - (l + a.length))).length = r - (l + a.length) := by simp; omega
  have h3 := appendN_okOr (E := E) h2.1 (nz_take (nz_drop hz.nz (l + a.length)) (r - (l + a.length)))
    (begins_drop_take hz.text (by omega) _) (by omega) (by omega)
  rw [e] at h3
  refine h3.bind fun v3 h4 => OkOr.ok ⟨v3, rfl, ?_⟩
  simpa using h4.1

theorem isFirst_drop {t b : Text} {l r : Nat} (hr : IsFirst t b r) (hlr : l ≤ r) :
    IsFirst (t.drop l) b (r - l) := by
  have hle := hr.1.le
  refine ⟨(occursAt_drop (by omega)).2 (by rw [Nat.add_sub_cancel' hlr]; exact hr.1), fun j hj ho => ?_⟩
  exact hr.2 (l + j) (by omega) ((occursAt_drop (by omega)).1 ho)

/-! ### Popping fields -/

/-- The capacity of a string that may be handed over. -/
def capOf : Option Arr → Nat
  | none => 0
  | some v => v.cap

/-- The common preparation of the returned string. -/
theorem spop_okOr {E : Env} {sr : Option Arr} (hs : ∀ v, sr = some v → ∃ u, IsStr v u) {n : Nat} (h0 : 0 < n) (hn : n < 2 ^ 56)
    {extra : Nat} (he : extra ≤ 1) {src : Mem} {ys : Text} (hy : 0 ∉ ys) (hb : Begins src ys) (hl : ys.length = n)
    {β : Type} {f : Arr → Out β} {Q : β → Prop} {B : Nat} (hB : capOf sr + n + 56 ≤ B)
    (hf : ∀ v, IsStr v ys → v.cap ≤ capOf sr + n + extra → OkOr E B (f v) Q) :
    OkOr E B (do
      let spop ← (match sr with
        | none => Str.createLen E n
        | some x => .ok x)
      let spop ← (if spop.len < n then Str.reserve E spop (wsub n spop.len + extra) else .ok spop)
      let spop ← Str.clear spop
      let spop ← Str.appendN E spop src n
      f spop) Q := by
  have hst : OkOr E B (match sr with
      | none => Str.createLen E n
      | some x => .ok x) fun v => (∃ u, IsStr v u) ∧ (v.len < n → v.cap ≤ capOf sr) ∧ v.cap ≤ capOf sr + n := by
    cases sr with
    | none =>
      refine (createLen_okOr h0 (by omega)).mono fun v h => ⟨⟨_, h.1⟩, ?_, by simp [h.2.1]⟩
      have := h.1.len
      simp at this
      omega
    | some v => exact OkOr.ok ⟨hs v rfl, by simp [capOf], by simp [capOf]⟩
  refine hst.bind ?_
  rintro v ⟨⟨u, hu⟩, hvc, hvn⟩
  have hst2 : OkOr E B (if v.len < n then Str.reserve E v (wsub n v.len + extra) else .ok v) fun v =>
      (∃ u, IsStr v u) ∧ v.cap ≤ capOf sr + n + extra := by
    split
    · rename_i hlt
      have := hvc hlt
      rw [wsub_eq (by omega) (by omega)]
      exact (reserve_okOr hu (by omega) (by omega)).mono fun v h => ⟨⟨_, h.1⟩, by omega⟩
    · exact OkOr.ok ⟨⟨u, hu⟩, by omega⟩
  refine hst2.bind ?_
  rintro v2 ⟨⟨u2, hu2⟩, hc2⟩
  obtain ⟨v3, e3, s3, c3, -⟩ := clear_ok hu2
  rw [e3, bind_ok]
  have h4 := appendN_okOr (E := E) s3 hy hb (by omega) (by omega)
  rw [hl] at h4
  exact h4.bind fun v4 h5 => hf v4 (by simpa using h5.1) (by rw [h5.2.1]; simp; omega)

theorem popGetFirst_okOr {E : Env} {v : Arr} {t ss : Text} (h : IsStr v t) {sep : Mem} (hs : CStr sep ss) (h0 : ss ≠ [])
    {sr : Option Arr} (hsr : ∀ x, sr = some x → ∃ u, IsStr x u) {i : Nat} (hi : IsFirst t ss i) (hp : 0 < i) :
    OkOr E (capOf sr + i + 56) (Str.popGetFirst E sr v sep) fun q => ∃ x, q.1 = some x ∧ IsStr x (t.take i) ∧
      IsStr q.2 (t.drop (i + ss.length)) ∧ x.cap ≤ capOf sr + i ∧ q.2.cap = v.cap := by
  have hle := hi.1.le
  have hlim := h.lim
  have hc := h.le
  have hz0 : 0 < ss.length := List.length_pos_iff.2 h0
  have w : wsub v.len (t.length - i) = i := by rw [h.len, wsub_eq (by omega) (by omega)]; omega
  simp only [Str.popGetFirst, strlen_ok hs.text, bind_ok, strstr0 h.text hs.text, findSub_some.2 hi,
    strlenAt_ok h.text (show i ≤ t.length by omega), w]
  rw [if_neg (by rw [h.len]; omega), if_neg (by omega)]
  refine spop_okOr (extra := 0) hsr hp (by omega) (by omega) (ys := t.take i) (nz_take h.nz i)
    ((begins_of_scanZ h.text).take i) (by simp; omega) (by omega) fun x hx hxc => ?_
  have w2 : wadd i ss.length = i + ss.length := wadd_eq (by omega)
  obtain ⟨v', e', s', c', -⟩ := remove_ok (E := E) h (i := 0) (n := i + ss.length) (by omega) (by omega)
  rw [w2, e', bind_ok]
  exact OkOr.ok ⟨x, rfl, hx, by simpa using s', by simpa using hxc, c'⟩

theorem popGetLast_okOr {E : Env} {v : Arr} {t ss : Text} (h : IsStr v t) {sep : Mem} (hs : CStr sep ss) (h0 : ss ≠ [])
    {sr : Option Arr} (hsr : ∀ x, sr = some x → ∃ u, IsStr x u) {l k : Nat} (hl : (positions t ss).getLast? = some l)
    (hp : l + ss.length < t.length) (hk : t.length < k) :
    OkOr E (capOf sr + t.length + 56) (Str.popGetLast E k sr v sep) fun q => ∃ x, q.1 = some x ∧ IsStr x (t.drop (l + ss.length)) ∧
      IsStr q.2 (t.take l) := by
  have hlim := h.lim
  have hc := h.le
  have hz0 : 0 < ss.length := List.length_pos_iff.2 h0
  obtain ⟨i, hi⟩ : ∃ i, IsFirst t ss i := by
    rcases exists_first_or_none t ss with ⟨i, hi, -⟩ | ⟨hno, -⟩
    · exact ⟨i, hi⟩
    · rw [positions_none hno] at hl; cases hl
  have w : wsub (t.length - l) ss.length = t.length - (l + ss.length) := by rw [wsub_eq (by omega) (by omega)]; omega
  simp only [Str.popGetLast, strlen_ok hs.text, bind_ok, strstr0 h.text hs.text, findSub_some.2 hi,
    lastInstance_first h.text hs.text h0 hi hk hl, strlenAt_ok h.text (show l ≤ t.length by omega), w]
  rw [if_neg (by rw [h.len]; omega), if_neg (by omega)]
  have key := spop_okOr (E := E) (extra := 1) hsr (n := t.length - (l + ss.length)) (by omega) (by omega) (by omega)
    (ys := t.drop (l + ss.length)) (nz_drop h.nz _)
    (begins_of_scanZ (scanZ_drop h.text (show l + ss.length ≤ t.length by omega))) (by simp) (B := capOf sr + t.length + 56) (by omega)
    (f := fun x => do
      let s ← Str.remove E v (wsub (wsub v.len (t.length - (l + ss.length))) ss.length)
        (wadd (t.length - (l + ss.length)) ss.length)
      .ok (some x, s))
    (Q := fun q => ∃ x, q.1 = some x ∧ IsStr x (t.drop (l + ss.length)) ∧ IsStr q.2 (t.take l)) ?_
  · have e : ∀ x : Arr, (if x.len < t.length - (l + ss.length) then
        Str.reserve E x (wadd (wsub (t.length - (l + ss.length)) x.len) 1) else Out.ok x) =
        (if x.len < t.length - (l + ss.length) then
        Str.reserve E x (wsub (t.length - (l + ss.length)) x.len + 1) else Out.ok x) := by
      intro x
      split
      · rw [wsub_eq (by omega) (by omega), wadd_eq (by omega)]
      · rfl
    simp only [e]
    exact key
  · intro x hx _
    have w2 : wsub (wsub v.len (t.length - (l + ss.length))) ss.length = l := by
      rw [h.len, wsub_eq (show t.length - (l + ss.length) ≤ t.length by omega) (by omega), wsub_eq (by omega) (by omega)]; omega
    have w3 : wadd (t.length - (l + ss.length)) ss.length = t.length - l := by rw [wadd_eq (by omega)]; omega
    obtain ⟨v', e', s', -⟩ := remove_ok (E := E) h (i := l) (n := t.length - l) (by omega) (by omega)
    rw [w2, w3, e', bind_ok]
    refine OkOr.ok ⟨x, rfl, hx, ?_⟩
    rw [List.drop_eq_nil_of_le (by omega), List.append_nil] at s'
    exact s'

end Vita
