import Verif.Props.ArgExact
/-!
# The order and the spelling of the options (C132)

Argument lists that give each option the same values in the same order have the same effect, whatever the order of the options among each other and whatever of the
three ways of writing is used.  Parsing two lists in turn is parsing them as one, and parsing the same list again changes nothing.
-/

namespace Vita
open Out ArgOpt Spec
seal wadd wsub wmul

/-! ### Specification -/

/-- The values given for option `j`, in order. -/
def valuesOf (as : List (Nat × Text)) (j : Nat) : List Text := (as.filter fun a => a.1 = j).map (·.2)

/-- The arguments that follow begin with an option, not with a value (45 is `-`). -/
def Dashed (args : List Text) : Prop := ∀ v, args.head? = some v → v.head? = some 45

/-- The ways of writing "option `j` has the value `v`": `key=v`; `key v`, if `v` does not begin with a dash; and `key` alone for the value `1`. -/
inductive Writes (strict : Bool) (ns : Names) (j : Nat) : Text → List Text → Prop
  | equals {k v : Text} : k ≠ [] → 61 ∉ k → ns.Option k j → Writes strict ns j v [k ++ 61 :: v]
  | apart {k v : Text} : Plain k → ns.Option k j → (strict = true → k ≠ []) → v.head? ≠ some 45 → Writes strict ns j v [k, v]
  | bare {k : Text} : Plain k → ns.Option k j → (strict = true → k ≠ []) → Writes strict ns j [49] [k]

/-! ### Readings -/

theorem reads_append {strict : Bool} {ns : Names} {args args' : List Text} {as as' : List (Nat × Text)} {r : Option Text} (h : Reads strict ns args as none)
    (hd : Dashed args') (h' : Reads strict ns args' as' r) : Reads strict ns (args ++ args') (as ++ as') r := by
  generalize hn : (none : Option Text) = n at h
  induction h with
  | done => exact h'
  | keyVal h1 h2 h3 _ ih => exact .keyVal h1 h2 h3 (ih hn)
  | value h1 h2 h3 h4 _ ih => exact .value h1 h2 h3 h4 (ih hn)
  | @flag a j rest as r h1 h2 h3 h4 _ ih =>
    refine .flag h1 h2 h3 ?_ (ih hn)
    intro v hv
    cases rest with
    | nil => exact hd v hv
    | cons b rest => exact h4 v hv
  | unknownKey => cases hn
  | unknown => cases hn

theorem reads_writes {strict : Bool} {ns : Names} {j : Nat} {v : Text} {ws rest : List Text} {as : List (Nat × Text)} {r : Option Text}
    (hw : Writes strict ns j v ws) (hd : Dashed rest) (h : Reads strict ns rest as r) : Reads strict ns (ws ++ rest) ((j, v) :: as) r := by
  cases hw with
  | equals h1 h2 h3 => exact .keyVal h1 h2 h3 h
  | apart h1 h2 h3 h4 => exact .value h1 h2 h3 h4 h
  | bare h1 h2 h3 => exact .flag h1 h2 h3 hd h

/-! ### Assignments -/

theorem putAll_append {debug : Bool} : ∀ {as bs : List (Nat × Text)} {slots : List Slot},
    putAll debug slots (as ++ bs) = putAll debug slots as >>= fun slots => putAll debug slots bs
  | [], bs, slots => rfl
  | (j, v) :: as, bs, slots => by
    rw [List.cons_append, putAll, putAll]
    cases slots[j]? with
    | none => rfl
    | some s =>
      dsimp only
      cases s.put debug v with
      | ok s => rw [bind_ok, bind_ok]; exact putAll_append
      | exit w => rfl
      | ub => rfl
      | fuel => rfl

/-- The converse of `C55_own_values`: if every option accepts its values, the assignments succeed. -/
theorem putAll_of_own {debug : Bool} : ∀ {as : List (Nat × Text)} {slots slots' : List Slot}, slots'.length = slots.length →
    (∀ a ∈ as, a.1 < slots.length) →
    (∀ (j : Nat) s, slots[j]? = some s → ∃ s', slots'[j]? = some s' ∧ s.putMany debug (valuesOf as j) = .ok s') → putAll debug slots as = .ok slots'
  | [], slots, slots', hl, _, h => by
    rw [putAll]
    congr 1
    apply List.ext_getElem? fun j => ?_
    cases hs : slots[j]? with
    | none =>
      rw [List.getElem?_eq_none_iff] at hs
      exact (List.getElem?_eq_none_iff.2 (by omega)).symm
    | some s =>
      obtain ⟨s', g1, g2⟩ := h j s hs
      rw [g1]
      simp only [valuesOf, List.filter_nil, List.map_nil, Slot.putMany, Out.ok.injEq] at g2
      rw [g2]
  | (i, v) :: as, slots, slots', hl, hb, h => by
    have hi : i < slots.length := hb (i, v) (by simp)
    have e0 : slots[i]? = some slots[i] := List.getElem?_eq_getElem hi
    obtain ⟨s', g1, g2⟩ := h i _ e0
    rw [valuesOf, List.filter_cons, if_pos (by simp), List.map_cons, Slot.putMany] at g2
    obtain ⟨s1, e1, g2⟩ := bind_eq_ok.1 g2
    rw [putAll, e0]
    dsimp only
    rw [e1, bind_ok]
    refine putAll_of_own (by simpa using hl) (fun a ha => by simpa using hb a (by simp [ha])) fun j s hs => ?_
    by_cases e : i = j
    · subst e
      rw [List.getElem?_set_self hi] at hs
      obtain rfl := Option.some.inj hs
      exact ⟨s', g1, g2⟩
    · rw [List.getElem?_set_ne e] at hs
      obtain ⟨s', k1, k2⟩ := h j s hs
      rw [valuesOf, List.filter_cons, if_neg (by simpa using e)] at k2
      exact ⟨s', k1, k2⟩

theorem putAll_bounds {debug : Bool} : ∀ {as : List (Nat × Text)} {slots slots' : List Slot}, putAll debug slots as = .ok slots' → ∀ a ∈ as, a.1 < slots.length
  | (i, v) :: as, slots, slots', h, a, ha => by
    rw [putAll] at h
    cases hi : slots[i]? with
    | none => rw [hi] at h; cases h
    | some s =>
      rw [hi] at h
      obtain ⟨s1, -, h⟩ := bind_eq_ok.1 h
      rcases List.mem_cons.1 ha with rfl | ha
      · exact (List.getElem?_eq_some_iff.1 hi).1
      · simpa using putAll_bounds h a ha

theorem valuesOf_ne_nil {as : List (Nat × Text)} {a : Nat × Text} (h : a ∈ as) : valuesOf as a.1 ≠ [] := by
  intro e
  have : a.2 ∈ valuesOf as a.1 := List.mem_map.2 ⟨a, List.mem_filter.2 ⟨h, by simp⟩, rfl⟩
  rw [e] at this
  cases this

theorem mem_of_valuesOf {as : List (Nat × Text)} {j : Nat} (h : valuesOf as j ≠ []) : ∃ a ∈ as, a.1 = j := by
  obtain ⟨v, hv⟩ := List.exists_mem_of_ne_nil _ h
  obtain ⟨a, ha, -⟩ := List.mem_map.1 hv
  obtain ⟨ha, hj⟩ := List.mem_filter.1 ha
  exact ⟨a, ha, by simpa using hj⟩

/-- Only the values of each option count. -/
theorem putAll_reorder {debug : Bool} {as bs : List (Nat × Text)} {slots slots' : List Slot} (hv : ∀ j, valuesOf as j = valuesOf bs j)
    (h : putAll debug slots as = .ok slots') : putAll debug slots bs = .ok slots' := by
  obtain ⟨hl, ho⟩ := C55_own_values h
  refine putAll_of_own hl (fun b hb => ?_) fun j s hs => ?_
  · have := valuesOf_ne_nil hb
    rw [← hv] at this
    obtain ⟨a, ha, e⟩ := mem_of_valuesOf this
    rw [← e]
    exact putAll_bounds h a ha
  · obtain ⟨s', g1, g2⟩ := ho j s hs
    exact ⟨s', g1, by rw [← hv]; exact g2⟩

/-! ### Again -/

/-- Writing over the beginning. -/
def overlay (u v : Text) : Text := v ++ u.drop v.length

theorem overlay_length {u v : Text} (h : v.length ≤ u.length) : (overlay u v).length = u.length := by
  simp only [overlay, List.length_append, List.length_drop]; omega

theorem overlay_append {p s v : Text} (h : v.length ≤ p.length) : overlay (p ++ s) v = overlay p v ++ s := by
  simp only [overlay, List.append_assoc, List.drop_append_of_le_length h]

theorem overlays_append {s : Text} : ∀ {vs : List Text} {p : Text}, (∀ v ∈ vs, v.length ≤ p.length) → vs.foldl overlay (p ++ s) = vs.foldl overlay p ++ s
  | [], p, _ => rfl
  | v :: vs, p, h => by
    have h0 := h v (by simp)
    rw [List.foldl_cons, List.foldl_cons, overlay_append h0, overlays_append fun w hw => by rw [overlay_length h0]; exact h w (by simp [hw])]

theorem overlays_length : ∀ {vs : List Text} {p : Text}, (∀ v ∈ vs, v.length ≤ p.length) → (vs.foldl overlay p).length = p.length
  | [], p, _ => rfl
  | v :: vs, p, h => by
    have h0 := h v (by simp)
    rw [List.foldl_cons, overlays_length fun w hw => by rw [overlay_length h0]; exact h w (by simp [hw]), overlay_length h0]

/-- If one of the texts covers everything, what was there before does not matter. -/
theorem overlays_cover : ∀ {vs : List Text} {p q : Text}, p.length = q.length → (∀ v ∈ vs, v.length ≤ p.length) → (∃ v ∈ vs, v.length = p.length) →
    vs.foldl overlay p = vs.foldl overlay q
  | [], p, q, _, _, h => by obtain ⟨v, hv, -⟩ := h; cases hv
  | v :: vs, p, q, hl, h, hc => by
    have h0 := h v (by simp)
    rw [List.foldl_cons, List.foldl_cons]
    by_cases e : v.length = p.length
    · rw [overlay, overlay, List.drop_of_length_le (by omega), List.drop_of_length_le (by omega)]
    · obtain ⟨w, hw, hwl⟩ := hc
      have : w ∈ vs := by
        rcases List.mem_cons.1 hw with rfl | hw
        · exact absurd hwl e
        · exact hw
      exact overlays_cover (by rw [overlay_length h0, overlay_length (by omega)]; exact hl)
        (fun w hw => by rw [overlay_length h0]; exact h w (by simp [hw])) ⟨w, this, by rw [overlay_length h0]; exact hwl⟩

theorem exists_longest : ∀ {vs : List Text}, vs ≠ [] → ∃ v ∈ vs, ∀ w ∈ vs, w.length ≤ v.length
  | [], h => absurd rfl h
  | [v], _ => ⟨v, by simp, by simp⟩
  | v :: w :: vs, _ => by
    obtain ⟨m, hm, hl⟩ := exists_longest (vs := w :: vs) (by simp)
    by_cases h : v.length ≤ m.length
    · refine ⟨m, by simp [List.mem_cons.1 hm], fun x hx => ?_⟩
      rcases List.mem_cons.1 hx with rfl | hx
      · exact h
      · exact hl x hx
    · refine ⟨v, by simp, fun x hx => ?_⟩
      rcases List.mem_cons.1 hx with rfl | hx
      · exact Nat.le_refl _
      · have := hl x hx; omega

theorem overlays_again {vs : List Text} {u : Text} (h : ∀ v ∈ vs, v.length ≤ u.length) : vs.foldl overlay (vs.foldl overlay u) = vs.foldl overlay u := by
  by_cases hv : vs = []
  · subst hv; rfl
  obtain ⟨m, hm, hl⟩ := exists_longest hv
  have hmu := h m hm
  have hp : (u.take m.length).length = m.length := by rw [List.length_take]; omega
  have hb : ∀ v ∈ vs, v.length ≤ (u.take m.length).length := fun v hv => by rw [hp]; exact hl v hv
  have e : vs.foldl overlay u = vs.foldl overlay (u.take m.length) ++ u.drop m.length := by
    rw [← overlays_append hb, List.take_append_drop]
  have hL := overlays_length hb
  rw [e, overlays_append fun v hv => by rw [hL]; exact hb v hv, overlays_cover hL (fun v hv => by rw [hL]; exact hb v hv) ⟨m, hm, by rw [hL, hp]⟩]

theorem putMany_unterminated {debug : Bool} {t : Text} {vs : List Text} {s' : Slot} (h : (Slot.unterminated t).putMany debug vs = .ok s') : s' = .unterminated t := by
  cases vs with
  | nil => rw [Slot.putMany, Out.ok.injEq] at h; exact h.symm
  | cons v vs => cases h

theorem putMany_cstr {debug : Bool} : ∀ {vs : List Text} {u : Text} {s' : Slot}, (Slot.cstr (some u)).putMany debug vs = .ok s' → (∀ t, s' ≠ .unterminated t) →
    (∀ v ∈ vs, v.length ≤ u.length) ∧ s' = .cstr (some (vs.foldl overlay u))
  | [], u, s', h, _ => by rw [Slot.putMany, Out.ok.injEq] at h; exact ⟨by simp, h.symm⟩
  | v :: vs, u, s', h, hs => by
    rw [Slot.putMany, Slot.put] at h
    by_cases hl : v.length ≤ u.length
    · rw [if_pos hl, bind_ok] at h
      obtain ⟨g1, g2⟩ := putMany_cstr h hs
      refine ⟨fun w hw => ?_, g2⟩
      rcases List.mem_cons.1 hw with rfl | hw
      · exact hl
      · have := g1 w hw
        rwa [show v ++ u.drop v.length = overlay u v from rfl, overlay_length hl] at this
    · rw [if_neg hl] at h
      by_cases hu : u = []
      · rw [if_pos hu, bind_ok] at h
        exact absurd (putMany_unterminated h) (hs _)
      · rw [if_neg hu] at h; cases h

theorem putMany_of_overlays {debug : Bool} : ∀ {vs : List Text} {u : Text}, (∀ v ∈ vs, v.length ≤ u.length) →
    (Slot.cstr (some u)).putMany debug vs = .ok (.cstr (some (vs.foldl overlay u)))
  | [], u, _ => rfl
  | v :: vs, u, h => by
    have h0 := h v (by simp)
    rw [Slot.putMany, Slot.put, if_pos h0, bind_ok]
    exact putMany_of_overlays (u := overlay u v) fun w hw => by rw [overlay_length h0]; exact h w (by simp [hw])

theorem plain_many {debug : Bool} : ∀ {vs : List Text} {w : Option Text}, (Slot.plain w).putMany debug vs = .ok (.plain (vs.getLast?.or w))
  | [], w => rfl
  | v :: vs, w => by
    rw [Slot.putMany, Slot.put, bind_ok, plain_many]
    cases vs with
    | nil => rfl
    | cons x vs => rw [List.getLast?_cons_cons]; simp [List.getLast?_cons]

theorem str_many {debug : Bool} : ∀ {vs : List Text} {w : Option Text} {s' : Slot}, (Slot.str w).putMany debug vs = .ok s' →
    s' = .str (vs.getLast?.or w) ∧ ∀ v ∈ vs, ¬ (v = [] ∧ debug = true)
  | [], w, s', h => by rw [Slot.putMany, Out.ok.injEq] at h; exact ⟨h.symm, by simp⟩
  | v :: vs, w, s', h => by
    rw [Slot.putMany, Slot.put] at h
    by_cases hv : v = [] ∧ debug = true
    · rw [if_pos hv] at h; cases h
    · rw [if_neg hv, bind_ok] at h
      obtain ⟨g1, g2⟩ := str_many h
      refine ⟨?_, fun x hx => ?_⟩
      · rw [g1]
        cases vs with
        | nil => rfl
        | cons x vs => rw [List.getLast?_cons_cons]; simp [List.getLast?_cons]
      · rcases List.mem_cons.1 hx with rfl | hx
        · exact hv
        · exact g2 x hx

theorem str_many_ok {debug : Bool} : ∀ {vs : List Text} {w : Option Text}, (∀ v ∈ vs, ¬ (v = [] ∧ debug = true)) →
    ∃ s', (Slot.str w).putMany debug vs = .ok s'
  | [], w, _ => ⟨_, rfl⟩
  | v :: vs, w, h => by
    rw [Slot.putMany, Slot.put, if_neg (h v (by simp)), bind_ok]
    exact str_many_ok fun x hx => h x (by simp [hx])

theorem putMany_other {debug : Bool} : ∀ {vs : List Text}, Slot.other.putMany debug vs = .ok .other
  | [] => rfl
  | v :: vs => by rw [Slot.putMany, Slot.put, bind_ok, putMany_other]

/-- An option that accepted its values accepts them again, and holds what it held. -/
theorem putMany_again {debug : Bool} {s s' : Slot} {vs : List Text} (h : s.putMany debug vs = .ok s') (hs : ∀ t, s' ≠ .unterminated t) :
    s'.putMany debug vs = .ok s' := by
  cases s with
  | plain w =>
    rw [plain_many, Out.ok.injEq] at h
    subst h
    rw [plain_many]
    cases vs.getLast? <;> rfl
  | str w =>
    obtain ⟨e, g⟩ := str_many h
    subst e
    obtain ⟨s2, h2⟩ := str_many_ok (w := vs.getLast?.or w) g
    rw [h2, (str_many h2).1]
    cases vs.getLast? <;> rfl
  | unterminated t => exact absurd (putMany_unterminated h) (hs t)
  | other =>
    rw [putMany_other, Out.ok.injEq] at h
    subst h
    exact putMany_other
  | cstr u =>
    cases u with
    | some u =>
      obtain ⟨hl, e⟩ := putMany_cstr h hs
      subst e
      rw [putMany_of_overlays fun v hv => by rw [overlays_length hl]; exact hl v hv, overlays_again hl]
    | none =>
      cases vs with
      | nil => rw [Slot.putMany, Out.ok.injEq] at h; subst h; rfl
      | cons v vs =>
        rw [Slot.putMany, Slot.put, bind_ok] at h
        obtain ⟨hl, e⟩ := putMany_cstr h hs
        subst e
        have hc : ∀ w ∈ v :: vs, w.length ≤ v.length := fun w hw => by
          rcases List.mem_cons.1 hw with rfl | hw
          · exact Nat.le_refl _
          · exact hl w hw
        have e : vs.foldl overlay v = (v :: vs).foldl overlay v := by
          rw [List.foldl_cons, overlay, List.drop_of_length_le (Nat.le_refl _), List.append_nil]
        rw [e, putMany_of_overlays fun w hw => by rw [overlays_length hc]; exact hc w hw, overlays_again hc]

theorem putAll_again {debug : Bool} {as : List (Nat × Text)} {slots slots' : List Slot} (h : putAll debug slots as = .ok slots')
    (hs : ∀ t, Slot.unterminated t ∉ slots') : putAll debug slots' as = .ok slots' := by
  obtain ⟨hl, ho⟩ := C55_own_values h
  refine putAll_of_own rfl (fun a ha => by rw [hl]; exact putAll_bounds h a ha) fun j s hj => ?_
  have hj' : j < slots.length := by rw [← hl]; exact (List.getElem?_eq_some_iff.1 hj).1
  obtain ⟨s', g1, g2⟩ := ho j _ (List.getElem?_eq_getElem hj')
  rw [hj] at g1
  obtain rfl := Option.some.inj g1
  exact ⟨s, hj, putMany_again g2 fun t e => hs t (e ▸ List.mem_of_getElem? hj)⟩

/-! ### Parsing -/

theorem LikeOr.exact {E : Env} {B : Nat} {o : Out α} {R : α → β → Prop} {o' : Out β} {a : α} (h : LikeOr E B o R o') (ho : o = .ok a) :
    ∃ b, o' = .ok b ∧ R a b := by
  subst ho
  rcases h with ⟨h, -⟩ | h
  · cases h
  · cases o' with
    | ok b => obtain ⟨a', e, hr⟩ := h; cases e; exact ⟨b, rfl, hr⟩
    | exit w => cases h
    | ub => cases h
    | fuel => cases h

theorem LikeOr.okOr {E : Env} {B : Nat} {o : Out α} {R : α → β → Prop} {b : β} (h : LikeOr E B o R (.ok b)) : OkOr E B o fun a => R a b := by
  rcases h with h | h
  · exact .inr h
  · exact .inl h

/-- After the names are known, the table is determined. -/
theorem table_of_names {opts opts' : List Opt} {ns : Names} (ht : IsTable opts ns) (hn : SameNames opts opts')
    (hv : ∀ o ∈ opts', ∃ v, o.value = some v) : IsTable opts' ns := by
  induction ht generalizing opts' with
  | nil =>
    have : opts' = [] := List.map_eq_nil_iff.1 (hn.trans rfl)
    subst this
    exact .nil
  | @cons o p os ns h _ ih =>
    cases opts' with
    | nil => cases hn
    | cons o' os' =>
      rw [SameNames, List.map_cons, List.map_cons, List.cons.injEq] at hn
      obtain ⟨l, s, v, h1, h2, h3, h4, h5, -, h7⟩ := h
      obtain ⟨e1, e2, e3⟩ : o'.long = o.long ∧ o'.short = o.short ∧ o'.ty = o.ty := by simpa using hn.1
      obtain ⟨v', hv'⟩ := hv o' (by simp)
      exact .cons ⟨l, s, v', e1.trans h1, h2, e2.trans h3, h4, h5, hv', e3 ▸ h7⟩ (ih hn.2 fun o ho => hv o (by simp [ho]))

theorem values_of_hold {vs : List Val} {opts : List Opt} {slots : List Slot} (h : HoldAll vs opts slots) : ∀ o ∈ opts, ∃ v, o.value = some v := by
  intro o ho
  obtain ⟨j, hj⟩ := List.getElem?_of_mem ho
  have hlt := (List.getElem?_eq_some_iff.1 hj).1
  obtain ⟨val, hv, -⟩ := h.2.2 j _ o _ (List.getElem?_eq_getElem (h.1 ▸ hlt)) hj (List.getElem?_eq_getElem (h.2.1 ▸ hlt))
  exact ⟨val, hv⟩

/-- **C132**: if two argument lists give every option the same values in the same order, and the first is parsed successfully, so is the second (or memory runs
out), and the variables hold the same. -/
theorem C132_order {E : Env} {vs : List Val} {opts : List Opt} {ns : Names} {slots : List Slot} {zs zs' : List Mem} {args args' : List Text}
    {as as' : List (Nat × Text)} (ht : IsTable opts ns) (h0 : opts ≠ []) (hs : HoldAll vs opts slots) (hz : List.Forall₂ CStr zs args)
    (hz' : List.Forall₂ CStr zs' args') (hh : ¬ AsksHelp args) (hh' : ¬ AsksHelp args') (hrd : Reads E.debug ns args as none)
    (hrd' : Reads E.debug ns args' as' none) (hv : ∀ j, valuesOf as j = valuesOf as' j) {q : Int × List Opt} (hp : parse E zs opts = .ok q) :
    ∃ slots', q.1 = 0 ∧ SameNames opts q.2 ∧ HoldAll vs q.2 slots' ∧
      OkOr E ((args'.map List.length).sum + 73) (parse E zs' opts) fun q' => q'.1 = 0 ∧ SameNames opts q'.2 ∧ HoldAll vs q'.2 slots' := by
  obtain ⟨slots', e, h1, h2, h3⟩ := (C55_exact ht h0 hs hz hh hrd).exact hp
  refine ⟨slots', h1, h2, h3, ?_⟩
  have := C55_exact ht h0 hs hz' hh' hrd'
  rw [putAll_reorder hv e] at this
  exact this.okOr

/-- **C132**: the way an option is written does not matter: anywhere in the argument list, each way of writing the same value for the same option gives the
same outcome, including failures. -/
theorem C132_spelling {E : Env} {vs : List Val} {opts : List Opt} {ns : Names} {slots : List Slot} {zs : List Mem} {pre ws rest : List Text}
    {as bs : List (Nat × Text)} {j : Nat} {v : Text} (ht : IsTable opts ns) (h0 : opts ≠ []) (hs : HoldAll vs opts slots)
    (hz : List.Forall₂ CStr zs (pre ++ (ws ++ rest))) (hh : ¬ AsksHelp (pre ++ (ws ++ rest))) (hpre : Reads E.debug ns pre as none) (hrest : Reads E.debug ns rest bs none)
    (hw : Writes E.debug ns j v ws) (hd : Dashed (ws ++ rest)) (hd' : Dashed rest) :
    LikeOr E (((pre ++ (ws ++ rest)).map List.length).sum + 73) (parse E zs opts) (fun q slots' => q.1 = 0 ∧ SameNames opts q.2 ∧ HoldAll vs q.2 slots')
      (putAll E.debug slots (as ++ (j, v) :: bs)) :=
  C55_exact ht h0 hs hz hh (reads_append hpre hd (reads_writes hw hd' hrest))

/-- **C132**: parsing a list and then another one has the outcome of parsing both as one list. -/
theorem C132_in_turn {E : Env} {vs : List Val} {opts : List Opt} {ns : Names} {slots : List Slot} {zs zs' : List Mem} {args args' : List Text}
    {as as' : List (Nat × Text)} (ht : IsTable opts ns) (h0 : opts ≠ []) (hs : HoldAll vs opts slots) (hz : List.Forall₂ CStr zs args)
    (hz' : List.Forall₂ CStr zs' args') (hh : ¬ AsksHelp args) (hh' : ¬ AsksHelp args') (hrd : Reads E.debug ns args as none)
    (hrd' : Reads E.debug ns args' as' none) (hd : Dashed args') :
    LikeOr E (((args ++ args').map List.length).sum + 73) (parse E zs opts >>= fun q => parse E zs' q.2)
      (fun q slots' => q.1 = 0 ∧ SameNames opts q.2 ∧ HoldAll vs q.2 slots') (putAll E.debug slots (as ++ as')) ∧
    (¬ AsksHelp (args ++ args') → LikeOr E (((args ++ args').map List.length).sum + 73) (parse E (zs ++ zs') opts)
      (fun q slots' => q.1 = 0 ∧ SameNames opts q.2 ∧ HoldAll vs q.2 slots') (putAll E.debug slots (as ++ as'))) := by
  refine ⟨?_, fun hb => C55_exact ht h0 hs (List.rel_append hz hz') hb (reads_append hrd hd hrd')⟩
  rw [putAll_append]
  refine (C55_exact ht h0 hs hz hh hrd).bind (fun q slots' hq => ?_) (by simp)
  obtain ⟨-, hn, hh2⟩ := hq
  have h0' : q.2 ≠ [] := by
    intro e
    rw [e, SameNames, List.map_nil] at hn
    exact h0 (List.map_eq_nil_iff.1 hn.symm)
  refine (C55_exact (table_of_names ht hn (values_of_hold hh2)) h0' hh2 hz' hh' hrd').mono (fun q' s' h => ⟨h.1, ?_, h.2.2⟩) (by simp)
  exact h.2.1.trans hn

/-- **C132**: parsing the same list again changes nothing, unless a C string lost its terminator the first time. -/
theorem C132_again {E : Env} {vs : List Val} {opts : List Opt} {ns : Names} {slots : List Slot} {zs : List Mem} {args : List Text}
    {as : List (Nat × Text)} (ht : IsTable opts ns) (h0 : opts ≠ []) (hs : HoldAll vs opts slots) (hz : List.Forall₂ CStr zs args)
    (hh : ¬ AsksHelp args) (hrd : Reads E.debug ns args as none) {q : Int × List Opt} (hp : parse E zs opts = .ok q) :
    ∃ slots', q.1 = 0 ∧ HoldAll vs q.2 slots' ∧ ((∀ t, Slot.unterminated t ∉ slots') →
      OkOr E ((args.map List.length).sum + 73) (parse E zs q.2) fun q' => q'.1 = 0 ∧ SameNames opts q'.2 ∧ HoldAll vs q'.2 slots') := by
  obtain ⟨slots', e, h1, h2, h3⟩ := (C55_exact ht h0 hs hz hh hrd).exact hp
  refine ⟨slots', h1, h3, fun hu => ?_⟩
  have h0' : q.2 ≠ [] := by
    intro e
    rw [e, SameNames, List.map_nil] at h2
    exact h0 (List.map_eq_nil_iff.1 h2.symm)
  have := C55_exact (table_of_names ht h2 (values_of_hold h3)) h0' h3 hz hh hrd
  rw [putAll_again e hu] at this
  exact this.okOr.mono fun q' h => ⟨h.1, h.2.1.trans h2, h.2.2⟩

/-- Example: two lists with the same values for each option, in another order and in other spellings. -/
example : (parse exE (argv ["--num=5", "-f", "-c", "xy", "-n", "12"]) exOpts).mapOk (fun q => (q.1, q.2.map (·.value))) =
    (parse exE (argv ["-c=xy", "-n", "5", "--num", "12", "-f=1"]) exOpts).mapOk (fun q => (q.1, q.2.map (·.value))) := by decide +kernel

example : (∀ j, valuesOf [(0, [53]), (1, [49]), (0, [54])] j = valuesOf [(1, [49]), (0, [53]), (0, [54])] j) ∧
    Writes true [([45, 110], [45])] 0 [49] [[45, 110, 61, 49]] ∧ Writes true [([45, 110], [45])] 0 [49] [[45], [49]] ∧ Writes true [([45, 110], [45])] 0 [49] [[45]] ∧
    Dashed [[45], [49]] := by
  refine ⟨fun j => ?_, .equals (k := [45, 110]) (by decide) (by decide) ⟨⟨_, rfl, .inl rfl⟩, by simp⟩,
    .apart (.inr (by decide)) ⟨⟨_, rfl, .inr rfl⟩, by simp⟩ (by simp) (by decide), .bare (.inr (by decide)) ⟨⟨_, rfl, .inr rfl⟩, by simp⟩ (by simp), ?_⟩
  · rcases j with _ | _ | j <;> simp [valuesOf]
  · intro v hv
    cases hv
    rfl

/-- Example: the order of the values of one option does matter; and a C string that lost its terminator cannot be assigned again. -/
example : putAll true [.plain none] [(0, [53]), (0, [54])] ≠ putAll true [.plain none] [(0, [54]), (0, [53])] ∧
    putAll true [.cstr (some [])] [(0, [97])] = .ok [.unterminated [97]] ∧ putAll true [.unterminated [97]] [(0, [97])] = .ub :=
  ⟨nofun, rfl, rfl⟩

end Vita
