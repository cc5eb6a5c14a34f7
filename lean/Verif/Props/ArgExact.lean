import Verif.Props.ArgOpt
/-!
# Argument parsing of every argument list (C55, C56)

C55 and C56 without restrictions on the values: what parsing does for each argument list, including those for which it fails.
-/

namespace Vita
open Out ArgOpt Spec
seal wadd wsub wmul

/-! ### Specification -/

/-- What the variable of an option holds: a number, truth value or character is described by the last value given for it (`none`: the initial one); a null
pointer, a string object or a C string by its text; a C string without a terminator by its bytes; variables of other types are never touched. -/
inductive Slot
  | plain (v : Option Text)
  | str (t : Option Text)
  | cstr (t : Option Text)
  | unterminated (t : Text)
  | other

/-- Giving a value to an option.  A C string that is there is overwritten from the beginning, nothing more; a value that is longer runs over the
end of its block, except over the empty text, where the terminator is lost. -/
def Slot.put (debug : Bool) : Slot → Text → Out Slot
  | .plain _, v => .ok (.plain (some v))
  | .str _, v => if v = [] ∧ debug = true then .exit .dbgAssert else .ok (.str (some v))
  | .cstr none, v => .ok (.cstr (some v))
  | .cstr (some u), v =>
    if v.length ≤ u.length then .ok (.cstr (some (v ++ u.drop v.length))) else if u = [] then .ok (.unterminated v) else .ub
  | .unterminated _, _ => .ub
  | .other, _ => .ok .other

/-- All assignments, in order. -/
def putAll (debug : Bool) (slots : List Slot) : List (Nat × Text) → Out (List Slot)
  | [] => .ok slots
  | (j, v) :: as =>
    match slots[j]? with
    | none => .ub
    | some s => do
      let s ← s.put debug v
      putAll debug (slots.set j s) as

/-- The variable of `o` holds what `s` says; `v0` is its initial value. -/
def HoldsSlot (v0 : Val) (o : Opt) (s : Slot) : Prop :=
  ∃ val, o.value = some val ∧
    match s with
    | .plain none => o.ty ≠ .str ∧ o.ty ≠ .cstr ∧ o.ty ≠ .rest ∧ o.ty ≠ .bad ∧ val = v0
    | .plain (some v) => o.ty ≠ .str ∧ o.ty ≠ .cstr ∧ o.ty ≠ .rest ∧ o.ty ≠ .bad ∧ OptHolds o.ty v val
    | .str none => o.ty = .str ∧ val = .str none
    | .str (some t) => o.ty = .str ∧ ∃ a, val = .str (some a) ∧ IsStr a t
    | .cstr none => o.ty = .cstr ∧ val = .cstr none
    | .cstr (some t) => o.ty = .cstr ∧ ∃ m, val = .cstr (some m) ∧ scanZ m = .ok t
    | .unterminated t => o.ty = .cstr ∧ val = .cstr (some (t.map some)) ∧ 0 ∉ t
    | .other => o.ty = .rest ∧ val = v0

/-- The variables of the table hold what the slots say. -/
def HoldAll (vs : List Val) (opts : List Opt) (slots : List Slot) : Prop :=
  vs.length = opts.length ∧ slots.length = opts.length ∧
    ∀ (j : Nat) v0 o s, vs[j]? = some v0 → opts[j]? = some o → slots[j]? = some s → HoldsSlot v0 o s

/-- The first outcome is as the second one says, unless some memory request for at most `B` bytes is refused. -/
def LikeOr (E : Env) (B : Nat) (o : Out α) (R : α → β → Prop) (o' : Out β) : Prop :=
  (o = .exit .alloc ∧ E.Refuses B) ∨
    match o' with
    | .ok b => ∃ a, o = .ok a ∧ R a b
    | .exit w => o = .exit w
    | .ub => o = .ub
    | .fuel => o = .fuel

/-! ### Lemmas -/

theorem LikeOr.bind {E : Env} {o : Out α} {R : α → β → Prop} {o' : Out β} {f : α → Out γ} {g : β → Out δ} {S : γ → δ → Prop} {B₀ B : Nat}
    (h : LikeOr E B₀ o R o') (hf : ∀ a b, R a b → LikeOr E B (f a) S (g b)) (hB : B₀ ≤ B := by first | omega | (simp <;> omega) | decide) :
    LikeOr E B (o >>= f) S (o' >>= g) := by
  rcases h with ⟨rfl, h⟩ | h
  · exact Or.inl ⟨rfl, h.le hB⟩
  · cases o' with
    | ok b =>
      obtain ⟨a, rfl, h⟩ := h
      exact hf a b h
    | exit w => dsimp only at h; subst h; exact Or.inr rfl
    | ub => dsimp only at h; subst h; exact Or.inr rfl
    | fuel => dsimp only at h; subst h; exact Or.inr rfl

theorem OkOr.like {E : Env} {o : Out α} {P : α → Prop} {f : α → Out γ} {S : γ → δ → Prop} {o' : Out δ} {B₀ B : Nat} (h : OkOr E B₀ o P)
    (hf : ∀ a, P a → LikeOr E B (f a) S o') (hB : B₀ ≤ B := by first | omega | (simp <;> omega) | decide) : LikeOr E B (o >>= f) S o' := by
  rcases h with ⟨a, rfl, h⟩ | ⟨rfl, h⟩
  · exact hf a h
  · exact Or.inl ⟨rfl, h.le hB⟩

theorem OkOr.likeOk {E : Env} {o : Out α} {P : α → Prop} {R : α → β → Prop} {b : β} {B : Nat} (h : OkOr E B o P) (hr : ∀ a, P a → R a b) : LikeOr E B o R (.ok b) := by
  rcases h with ⟨a, rfl, h⟩ | ⟨rfl, h⟩
  · exact Or.inr ⟨a, rfl, hr a h⟩
  · exact Or.inl ⟨rfl, h⟩

theorem LikeOr.mono {E : Env} {o : Out α} {R S : α → β → Prop} {o' : Out β} {B₀ B : Nat} (h : LikeOr E B₀ o R o') (hr : ∀ a b, R a b → S a b)
    (hB : B₀ ≤ B := by first | omega | (simp <;> omega) | decide) : LikeOr E B o S o' := by
  rcases h with h | h
  · exact Or.inl ⟨h.1, h.2.le hB⟩
  · right
    cases o' with
    | ok b => obtain ⟨a, e, h⟩ := h; exact ⟨a, e, hr a b h⟩
    | _ => exact h

theorem create_empty_okOr {E : Env} (hR : E.debug = false) {z : Mem} (hz : CStr z []) : OkOr E 56 (Str.create E z) fun v => IsStr v [] := by
  cases ha : E.allocOk arrStructSize with
  | false =>
    refine Or.inr ⟨?_, _, by simp [arrStructSize], ha⟩
    simp [Str.create, strlen_ok hz.text, Str.createLen, dassert_release hR, vtCalloc_fail (by decide : 0 < arrStructSize) ha]
  | true =>
    cases hb : E.allocOk 1 with
    | false =>
      refine Or.inr ⟨?_, _, by omega, hb⟩
      have w : wmul (wadd 0 1) 1 = 1 := by rw [wadd_eq (by omega)]; exact wmul_one (by omega)
      simp [Str.create, strlen_ok hz.text, Str.createLen, dassert_release hR, vtCalloc_ok (by decide : 0 < arrStructSize) ha, w,
        vtCalloc_fail (by omega : 0 < 1) hb]
    | true =>
      obtain ⟨v, e, hv⟩ := (C17_empty_string_partial hR hz ha hb).1
      exact Or.inl ⟨v, e, hv⟩

theorem strlen_unterminated {v : Text} (h : 0 ∉ v) : strlen (v.map some) = .ub := by
  have : scanZ (v.map some) = .ub := by
    induction v with
    | nil => rfl
    | cons c v ih =>
      simp only [List.mem_cons, not_or] at h
      have hc : c ≠ 0 := fun e => h.1 e.symm
      simp only [List.map_cons, scanZ, hc, if_false, ih h.2]
      rfl
  rw [strlen, this]
  rfl

/-- What an assignment does to the option. -/
def Put (v0 : Val) (o o' : Opt) (s' : Slot) : Prop := o'.long = o.long ∧ o'.short = o.short ∧ o'.ty = o.ty ∧ HoldsSlot v0 o' s'

theorem assign_plain {E : Env} {v0 val : Val} {o : Opt} (hv : o.value = some val) (h1 : o.ty ≠ .str) (h2 : o.ty ≠ .cstr) (h3 : o.ty ≠ .rest)
    (h4 : o.ty ≠ .bad) {z : Mem} {v : Text} (hz : CStr z v) : LikeOr E (v.length + 56) (assign E o z) (Put v0 o) (.ok (.plain (some v))) := by
  have key : ∀ {ty : Ty} {w : Val}, ty ≠ .str → ty ≠ .cstr → ty ≠ .rest → ty ≠ .bad → ∃ w', assignValue E ty w z = assignValue E ty w' z ∧ Ready ty v w' := by
    intro ty w g1 g2 g3 g4
    cases ty with
    | int T => exact ⟨.int 0, rfl, trivial⟩
    | flt f => exact ⟨.flt (.nan false), rfl, trivial⟩
    | bool => exact ⟨.bool true, rfl, trivial⟩
    | char => exact ⟨.char 0, rfl, trivial⟩
    | str => exact absurd rfl g1
    | cstr => exact absurd rfl g2
    | rest => exact absurd rfl g3
    | bad => exact absurd rfl g4
  obtain ⟨w', e, hr⟩ := key (w := val) h1 h2 h3 h4
  simp only [assign, hv, e]
  exact (assignValue_okOr hz hr).like fun val' h => Or.inr ⟨_, rfl, rfl, rfl, rfl, val', rfl, h1, h2, h3, h4, h⟩

theorem assignCstr_refused {E : Env} {z m : Mem} {v u : Text} (hz : CStr z v) (hm : scanZ m = .ok u) (hl : u.length < v.length)
    (ha : E.allocOk (v.length - u.length) = false) : assignCstr E (some m) z = .exit .alloc := by
  have hlim := hz.lim
  simp only [assignCstr, strlen_ok hz.text, strlen_ok hm, bind_ok]
  rw [if_pos (by omega), wsub_eq (by omega) (by omega), vtRealloc_fail (by omega) ha, bind_exit]

theorem assign_like {E : Env} {v0 : Val} {o : Opt} {s : Slot} (h : HoldsSlot v0 o s) {z : Mem} {v : Text} (hz : CStr z v) :
    LikeOr E (v.length + 56) (assign E o z) (Put v0 o) (s.put E.debug v) := by
  obtain ⟨val, hv, h⟩ := h
  obtain ⟨ol, os, ov, ty⟩ := o
  dsimp only at hv h
  cases s with
  | plain w =>
    have : ty ≠ .str ∧ ty ≠ .cstr ∧ ty ≠ .rest ∧ ty ≠ .bad := by cases w <;> exact ⟨h.1, h.2.1, h.2.2.1, h.2.2.2.1⟩
    exact assign_plain hv this.1 this.2.1 this.2.2.1 this.2.2.2 hz
  | str t =>
    have ht : ty = .str := by cases t <;> exact h.1
    subst ht
    unfold Slot.put
    dsimp only
    simp only [assign, hv]
    cases t with
    | none =>
      obtain ⟨-, rfl⟩ := h
      simp only [assignValue, Out.bind_assoc, bind_ok]
      split
      · next hc =>
        obtain ⟨rfl, hd⟩ := hc
        rw [(C17_debug_rejects_empty hd hz).1]
        exact Or.inr rfl
      · next hc =>
        have : OkOr E (v.length + 56) (Str.create E z) fun a => IsStr a v := by
          by_cases h0 : v = []
          · subst h0
            exact (create_empty_okOr (by simpa using hc) hz).le
          · exact (create_okOr hz h0).mono fun a h => h.1
        exact this.like fun a ha => Or.inr ⟨_, rfl, rfl, rfl, rfl, _, rfl, rfl, a, rfl, ha⟩
    | some t =>
      obtain ⟨-, a, rfl, ha⟩ := h
      obtain ⟨a', e, ha', -⟩ := clear_ok ha
      simp only [assignValue, Out.bind_assoc, bind_ok, e]
      split
      · next hc =>
        obtain ⟨rfl, hd⟩ := hc
        rw [(C17_debug_rejects_empty hd hz).2.2.1 _ _ ha']
        exact Or.inr rfl
      · next hc =>
        have : OkOr E (v.length + 1) (Str.append E a' z) fun a => IsStr a v :=
          append_arg ha' hz (by by_cases h0 : v = []; exact Or.inr (by simpa [h0] using hc); exact Or.inl h0)
        exact this.like fun a ha => Or.inr ⟨_, rfl, rfl, rfl, rfl, _, rfl, rfl, a, rfl, ha⟩
  | cstr t =>
    have ht : ty = .cstr := by cases t <;> exact h.1
    subst ht
    simp only [assign, hv]
    cases t with
    | none =>
      obtain ⟨-, rfl⟩ := h
      simp only [assignValue, Out.bind_assoc, bind_ok]
      exact (assignCstr_new hz).like fun m hm => Or.inr ⟨_, rfl, rfl, rfl, rfl, _, rfl, rfl, m, rfl, by
        rw [hm]; exact scanZ_append hz.nz⟩
    | some u =>
      obtain ⟨-, m, rfl, hm⟩ := h
      simp only [assignValue, Out.bind_assoc, bind_ok]
      unfold Slot.put
      dsimp only
      split
      · next hl =>
        have : ∃ m', assignCstr E (some m) z = .ok m' ∧ scanZ m' = .ok (v ++ u.drop v.length) := by
          rcases Nat.lt_or_ge v.length u.length with g | g
          · exact C57_shorter_keeps_tail hz hm g
          · obtain ⟨m', e, h1, -⟩ := C57_replace_partial (E := E) hz hm (by omega)
            exact ⟨m', e, by rw [h1, List.drop_eq_nil_of_le g, List.append_nil]⟩
        obtain ⟨m', e, h1⟩ := this
        rw [e]
        exact Or.inr ⟨_, rfl, rfl, rfl, rfl, _, rfl, rfl, m', rfl, h1⟩
      · next hl =>
        split
        · next h0 =>
          subst h0
          have hne : v ≠ [] := by rintro rfl; exact hl (Nat.le_refl _)
          cases ha : E.allocOk v.length with
          | false =>
            left
            refine ⟨?_, _, by omega, ha⟩
            rw [assignCstr_refused hz hm (List.length_pos_iff.2 hne) ha, bind_exit]
          | true =>
            obtain ⟨m', e, h1, -⟩ := C57_after_empty_unterminated (E := E) hz hm hne ha
            rw [e]
            exact Or.inr ⟨_, rfl, rfl, rfl, rfl, _, rfl, rfl, by rw [h1], hz.nz⟩
        · next h0 =>
          cases ha : E.allocOk (v.length - u.length) with
          | false =>
            left
            refine ⟨?_, _, by omega, ha⟩
            rw [assignCstr_refused hz hm (by omega) ha, bind_exit]
          | true =>
            rw [C57_longer_overruns (E := E) hz hm (by omega) h0 ha]
            exact Or.inr rfl
  | unterminated t =>
    obtain ⟨rfl, rfl, h0⟩ := h
    simp only [assign, hv, assignValue, assignCstr, strlen_ok hz.text, strlen_unterminated h0, bind_ok, bind_ub]
    exact Or.inr rfl
  | other =>
    obtain ⟨rfl, rfl⟩ := h
    simp only [assign, hv, assignValue, bind_ok]
    exact Or.inr ⟨_, rfl, rfl, rfl, rfl, _, rfl, rfl, rfl⟩

theorem search_hit {opts : List Opt} {ns : Names} (ht : IsTable opts ns) {z : Mem} {k : Text} (hz : CStr z k) {j : Nat} (hj : ns.Option k j)
    {o : Opt} (ho : opts[j]? = some o) (act : Opt → Out (Opt × Bool)) :
    search z act opts = act o >>= fun q => .ok (true, opts.set j q.1, q.2) := by
  induction ht generalizing j with
  | nil => simp at ho
  | @cons o' p os ns h _ ih =>
    obtain ⟨l, s, v, h1, h2, h3, h4, -, -, -⟩ := h
    obtain ⟨⟨q, hq, hk⟩, hb⟩ := hj
    rw [search, matches_eq h1 h2 h3 h4 hz, bind_ok]
    cases j with
    | zero =>
      simp only [List.getElem?_cons_zero, Option.some.injEq] at hq ho
      subst hq ho
      rw [decide_eq_true hk, if_pos rfl]
      rfl
    | succ j =>
      have h5 := hb 0 (by omega) p rfl
      rw [decide_eq_false (by rintro (e | e); exact h5.1 e; exact h5.2 e), if_neg (by simp)]
      rw [ih ⟨⟨q, by simpa using hq, hk⟩, fun i hi p' hp' => hb (i + 1) (by omega) p' (by simpa using hp')⟩ (by simpa using ho)]
      simp only [Out.bind_assoc, bind_ok]
      rfl

/-- What is left of the table, and what the slots say of it. -/
structure Same (vs : List Val) (ns : Names) (opts0 opts : List Opt) (slots : List Slot) : Prop where
  table : IsTable opts ns
  hold : HoldAll vs opts slots
  names : opts.map (fun o => (o.long, o.short, o.ty)) = opts0.map fun o => (o.long, o.short, o.ty)

theorem Same.put {vs : List Val} {ns : Names} {opts0 opts : List Opt} {slots : List Slot} (h : Same vs ns opts0 opts slots) {j : Nat} {o o' : Opt} {s' : Slot}
    (ho : opts[j]? = some o) {v0 : Val} (hv : vs[j]? = some v0) (hp : Put v0 o o' s') : Same vs ns opts0 (opts.set j o') (slots.set j s') := by
  obtain ⟨p1, p2, p3, p4⟩ := hp
  refine ⟨h.table.set ho p1 p2 p3 (p4.imp fun _ h => h.1), ⟨by simpa using h.hold.1, by simpa using h.hold.2.1, ?_⟩, ?_⟩
  · intro i w a s hw ha hs
    by_cases e : j = i
    · subst e
      rw [hv] at hw
      obtain rfl := Option.some.inj hw
      have hl : j < opts.length := (List.getElem?_eq_some_iff.1 ho).1
      rw [List.getElem?_set_self hl] at ha
      rw [List.getElem?_set_self (by rw [h.hold.2.1]; exact hl)] at hs
      obtain rfl := Option.some.inj ha
      obtain rfl := Option.some.inj hs
      exact p4
    · rw [List.getElem?_set_ne e] at ha hs
      exact h.hold.2.2 i w a s hw ha hs
  · rw [← h.names]
    apply List.ext_getElem?
    intro i
    simp only [List.getElem?_map]
    by_cases e : j = i
    · subst e
      rw [List.getElem?_set_self (List.getElem?_eq_some_iff.1 ho).1, ho]
      simp [p1, p2, p3]
    · rw [List.getElem?_set_ne e]

theorem Same.at {vs : List Val} {ns : Names} {opts0 opts : List Opt} {slots : List Slot} (h : Same vs ns opts0 opts slots) {k : Text} {j : Nat} (hj : ns.Option k j) :
    ∃ v0 o s, vs[j]? = some v0 ∧ opts[j]? = some o ∧ slots[j]? = some s ∧ HoldsSlot v0 o s := by
  obtain ⟨⟨p, hp, -⟩, -⟩ := hj
  have hl : j < opts.length := by rw [h.table.length_eq]; exact (List.getElem?_eq_some_iff.1 hp).1
  have l1 := h.hold.1
  have l2 := h.hold.2.1
  exact ⟨vs[j], opts[j], slots[j], by simp, by simp, by simp, h.hold.2.2 j _ _ _ (by simp) (by simp) (by simp)⟩

/-- How parsing ends: the assignments one after the other; then, in a debug build, an empty argument ends the program; else the status is 0, or -1 if there is an
argument that was not recognised. -/
def ends (debug : Bool) (slots : List Slot) (as : List (Nat × Text)) (r : Option Text) : Out (Int × List Slot) := do
  let slots ← putAll debug slots as
  if r = some [] ∧ debug = true then .exit .dbgAssert else .ok (if r = none then 0 else -1, slots)

theorem ends_cons {debug : Bool} {slots : List Slot} {j : Nat} {s : Slot} (hs : slots[j]? = some s) (v : Text) (as : List (Nat × Text)) (r : Option Text) :
    ends debug slots ((j, v) :: as) r = s.put debug v >>= fun s' => ends debug (slots.set j s') as r := by
  simp only [ends, putAll, hs, Out.bind_assoc]

theorem parseLoop_like {E : Env} {vs : List Val} {ns : Names} {opts0 : List Opt} {args : List Text} {as : List (Nat × Text)} {r : Option Text}
    (hrd : Reads E.debug ns args as r) : ∀ {zs : List Mem} {opts : List Opt} {slots : List Slot} {sArg sOpt : Arr}, List.Forall₂ CStr zs args →
      Same vs ns opts0 opts slots → IsStr sArg [] → IsStr sOpt [] →
      LikeOr E (sOpt.cap + (args.map List.length).sum + 57) (parseLoop E false zs sArg sOpt opts) (fun q p => q.1 = p.1 ∧ Same vs ns opts0 q.2 p.2) (ends E.debug slots as r) := by
  induction hrd with
  | done =>
    intro zs opts slots sArg sOpt hz hs h1 h2
    cases hz
    rw [parseLoop]
    exact Or.inr ⟨_, rfl, rfl, hs⟩
  | @keyVal k v j rest as r hk hk' hj hrd ih =>
    intro zs opts slots sArg sOpt hz ht h1 h2
    cases hz with
    | @cons z _ zs _ hz hzs =>
    rw [parseLoop]
    refine (append_arg h1 hz (Or.inl (by simp))).like fun s hs => ?_
    refine (popGetFirst_okOr hs cstr_eqZ (by simp) (sr := some sOpt) (fun x hx => ⟨[], by cases hx; exact h2⟩) (isFirst_key hk')
      (List.length_pos_iff.2 hk)).like ?_ (by simp [capOf]; omega)
    rintro ⟨so, s'⟩ ⟨x, hx, hx1, hx2, hxc, -⟩
    simp only [capOf] at hx hx2 hxc
    subst hx
    simp only [List.take_left] at hx1
    have hx2 : IsStr s' v := by
      have e : (k ++ 61 :: v).drop (k.length + 1) = v := by rw [← List.drop_drop]; simp
      have := hx2
      simp only [List.length_singleton] at this
      rw [e] at this
      exact this
    obtain ⟨v0, o, sl, g1, g2, g3, g4⟩ := ht.at hj
    simp only []
    rw [tryOpts_key (by rw [hx1.len]; have := List.length_pos_iff.2 hk; omega), search_hit ht.table hx1.cstr hj g2, ends_cons g3]
    simp only [act1, Out.bind_assoc, bind_ok]
    refine (assign_like g4 hx2.cstr).bind fun o' s1 hp => ?_
    simp only [Bool.not_true, Bool.false_eq_true, if_false]
    obtain ⟨s2, e2, hs2, -⟩ := clear_ok hx2
    obtain ⟨s3, e3, hs3, hc3, -⟩ := clear_ok hx1
    rw [e2, bind_ok, e3, bind_ok]
    exact (ih hzs (ht.put g2 g1 hp) hs2 hs3).mono fun _ _ h => h
  | @value a v j rest as r hp hj hne hv hrd ih =>
    intro zs opts slots sArg sOpt hz ht h1 h2
    cases hz with
    | @cons z _ zs _ hz hzs =>
    cases hzs with
    | @cons zv _ zs _ hzv hzs =>
    rw [parseLoop]
    refine (append_arg h1 hz (ne_or hne)).like fun s hs => ?_
    obtain ⟨v0, o, sl, g1, g2, g3, g4⟩ := ht.at hj
    rw [popGetFirst_plain hs hp, bind_ok]
    simp only [List.head?_cons]
    rw [tryOpts_plain (by rw [h2.len]; rfl), search_hit ht.table hs.cstr hj g2, ends_cons g3]
    simp only [act2, getc_head hzv, bind_ok]
    rw [if_pos (fun e => hv ((headD_eq hzv.nz (by decide)).1 e))]
    simp only [Out.bind_assoc, bind_ok]
    refine (assign_like g4 hzv).bind fun o' s1 hp => ?_
    simp only [Bool.not_true, Bool.false_eq_true, if_false]
    obtain ⟨s2, e2, hs2, -⟩ := clear_ok hs
    obtain ⟨s3, e3, hs3, hc3, -⟩ := clear_ok h2
    rw [e2, bind_ok, e3, bind_ok, skip_one]
    exact (ih hzs (ht.put g2 g1 hp) hs2 hs3).mono fun _ _ h => h
  | @flag a j rest as r hp hj hne hv hrd ih =>
    intro zs opts slots sArg sOpt hz ht h1 h2
    cases hz with
    | @cons z _ zs _ hz hzs =>
    rw [parseLoop]
    refine (append_arg h1 hz (ne_or hne)).like fun s hs => ?_
    obtain ⟨v0, o, sl, g1, g2, g3, g4⟩ := ht.at hj
    rw [popGetFirst_plain hs hp, bind_ok]
    simp only []
    rw [tryOpts_plain (by rw [h2.len]; rfl), search_hit ht.table hs.cstr hj g2, ends_cons g3]
    have ha : act2 E zs.head? o = assign E o oneZ >>= fun o => .ok (o, false) := by
      cases hzs with
      | nil => rfl
      | @cons zv v zs rest hzv hzs =>
        simp only [act2, List.head?_cons, getc_head hzv, bind_ok]
        rw [if_neg (by simp only [ne_eq, not_not]; exact (headD_eq hzv.nz (by decide)).2 (hv v rfl))]
    rw [ha]
    simp only [Out.bind_assoc, bind_ok]
    refine (assign_like g4 cstr_oneZ).bind fun o' s1 hp => ?_
    simp only [Bool.not_true, Bool.false_eq_true, if_false]
    obtain ⟨s2, e2, hs2, -⟩ := clear_ok hs
    obtain ⟨s3, e3, hs3, hc3, -⟩ := clear_ok h2
    rw [e2, bind_ok, e3, bind_ok]
    exact (ih hzs (ht.put g2 g1 hp) hs2 hs3).mono fun _ _ h => h
  | @unknownKey k v rest hk hk' hu =>
    intro zs opts slots sArg sOpt hz ht h1 h2
    cases hz with
    | @cons z _ zs _ hz hzs =>
    rw [parseLoop]
    refine (append_arg h1 hz (Or.inl (by simp))).like fun s hs => ?_
    refine (popGetFirst_okOr hs cstr_eqZ (by simp) (sr := some sOpt) (fun x hx => ⟨[], by cases hx; exact h2⟩) (isFirst_key hk')
      (List.length_pos_iff.2 hk)).like ?_ (by simp [capOf]; omega)
    rintro ⟨so, s'⟩ ⟨x, hx, hx1, hx2, hxc, -⟩
    simp only [capOf] at hx hx2 hxc
    subst hx
    simp only [List.take_left] at hx1
    simp only []
    rw [tryOpts_key (by rw [hx1.len]; have := List.length_pos_iff.2 hk; omega), search_unknown ht.table hx1.cstr hu, bind_ok]
    simp only [ends, putAll, bind_ok]
    rw [if_neg (show ¬ (some (k ++ 61 :: v) = some [] ∧ E.debug = true) by simp)]
    exact Or.inr ⟨_, rfl, rfl, ht⟩
  | @unknown a rest hp hu =>
    intro zs opts slots sArg sOpt hz ht h1 h2
    cases hz with
    | @cons z _ zs _ hz hzs =>
    rw [parseLoop]
    simp only [ends, putAll, bind_ok]
    by_cases hc : a = [] ∧ E.debug = true
    · obtain ⟨rfl, hd⟩ := hc
      rw [(C17_debug_rejects_empty hd hz).2.2.1 _ _ h1, bind_exit, if_pos ⟨rfl, hd⟩]
      exact Or.inr rfl
    rw [if_neg (by simpa using hc)]
    refine (append_arg h1 hz (by by_cases h0 : a = []; exact Or.inr (by simpa [h0] using hc); exact Or.inl h0)).like fun s hs => ?_
    have hu : ns.Unknown a := hu.elim id fun h => absurd ⟨h.2, h.1⟩ hc
    rw [popGetFirst_plain hs hp, bind_ok]
    simp only []
    rw [tryOpts_plain (by rw [h2.len]; rfl), search_unknown ht.table hs.cstr hu, bind_ok]
    exact Or.inr ⟨_, rfl, rfl, ht⟩

theorem parse_like {E : Env} {vs : List Val} {opts : List Opt} {ns : Names} {slots : List Slot} {zs : List Mem} {args : List Text} {as : List (Nat × Text)}
    {r : Option Text} (ht : IsTable opts ns) (h0 : opts ≠ []) (hs : HoldAll vs opts slots) (hz : List.Forall₂ CStr zs args) (hh : ¬ AsksHelp args)
    (hrd : Reads E.debug ns args as r) :
    LikeOr E ((args.map List.length).sum + 73) (parse E zs opts) (fun q p => q.1 = p.1 ∧ Same vs ns opts q.2 p.2) (ends E.debug slots as r) := by
  obtain ⟨b, hb, hb'⟩ := helpWanted_eq hz
  have : b = false := by
    cases b
    · rfl
    · exact absurd (hb'.1 rfl) hh
  subst this
  unfold parse
  rw [decide_eq_true (show opts.length ≥ 1 from List.length_pos_iff.2 h0), enforce_true, bind_ok, validate_ok ht, bind_ok]
  simp only [Bool.not_true, Bool.false_eq_true, if_false, hb, bind_ok]
  refine (createCapacity_okOr (by decide) (by decide)).like (fun s1 h1 => ?_) (by simp [defaultInit])
  refine (createCapacity_okOr (by decide) (by decide)).like (fun s2 h2 => ?_) (by simp [defaultInit])
  exact (parseLoop_like hrd hz ⟨ht, hs, rfl⟩ h1.1 h2.1).mono (fun _ _ h => h) (by rw [h2.2.1]; simp [defaultInit]; omega)

/-! ### C55, C56 -/

/-- The options are the same apart from the variables. -/
def SameNames (opts opts' : List Opt) : Prop := opts'.map (fun o => (o.long, o.short, o.ty)) = opts.map fun o => (o.long, o.short, o.ty)

/-- **C55, exactly.** For every argument list whose arguments are all recognised, whatever the values: parsing performs the assignments in order, and ends with
status 0, or as the first assignment that fails does. -/
theorem C55_exact {E : Env} {vs : List Val} {opts : List Opt} {ns : Names} {slots : List Slot} {zs : List Mem} {args : List Text} {as : List (Nat × Text)}
    (ht : IsTable opts ns) (h0 : opts ≠ []) (hs : HoldAll vs opts slots) (hz : List.Forall₂ CStr zs args) (hh : ¬ AsksHelp args)
    (hrd : Reads E.debug ns args as none) :
    LikeOr E ((args.map List.length).sum + 73) (parse E zs opts) (fun q slots' => q.1 = 0 ∧ SameNames opts q.2 ∧ HoldAll vs q.2 slots') (putAll E.debug slots as) := by
  have h := parse_like (E := E) ht h0 hs hz hh hrd
  simp only [ends] at h
  cases hp : putAll E.debug slots as with
  | ok sl =>
    rw [hp, bind_ok, if_neg (by simp)] at h
    rcases h with h | ⟨q, e, h1, h2⟩
    · exact Or.inl h
    · exact Or.inr ⟨q, e, h1, h2.names, h2.hold⟩
  | exit w => rw [hp] at h; exact h
  | ub => rw [hp] at h; exact h
  | fuel => rw [hp] at h; exact h

/-- **C56, exactly.** For every argument list with an argument `a` that is not recognised: the assignments before it are performed in order, as in `C55_exact`; then
the status is -1, except that an empty argument ends a debug build. -/
theorem C56_exact {E : Env} {vs : List Val} {opts : List Opt} {ns : Names} {slots : List Slot} {zs : List Mem} {args : List Text} {as : List (Nat × Text)}
    {a : Text} (ht : IsTable opts ns) (h0 : opts ≠ []) (hs : HoldAll vs opts slots) (hz : List.Forall₂ CStr zs args) (hh : ¬ AsksHelp args)
    (hrd : Reads E.debug ns args as (some a)) :
    LikeOr E ((args.map List.length).sum + 73) (parse E zs opts) (fun q slots' => q.1 = -1 ∧ SameNames opts q.2 ∧ HoldAll vs q.2 slots')
      (putAll E.debug slots as >>= fun slots' => if a = [] ∧ E.debug = true then .exit .dbgAssert else .ok slots') := by
  have h := parse_like (E := E) ht h0 hs hz hh hrd
  simp only [ends, Option.some.injEq, reduceCtorEq, if_false] at h
  cases hp : putAll E.debug slots as with
  | ok sl =>
    rw [hp, bind_ok] at h
    rw [bind_ok]
    split at h
    · next hc => rw [if_pos hc]; exact h
    · next hc =>
      rw [if_neg hc]
      rcases h with h | ⟨q, e, h1, h2⟩
      · exact Or.inl h
      · exact Or.inr ⟨q, e, h1, h2.names, h2.hold⟩
  | exit w => rw [hp] at h; exact h
  | ub => rw [hp] at h; exact h
  | fuel => rw [hp] at h; exact h

/-- **C56, disagreement.** In every debug build, for every table: an empty argument in the place of an option ends the program after the assignments before it. -/
theorem C56_empty_argument_ends {E : Env} (hE : E.debug = true) {vs : List Val} {opts : List Opt} {ns : Names} {slots slots' : List Slot} {zs : List Mem}
    {args : List Text} {as : List (Nat × Text)} (ht : IsTable opts ns) (h0 : opts ≠ []) (hs : HoldAll vs opts slots) (hz : List.Forall₂ CStr zs args)
    (hh : ¬ AsksHelp args) (hrd : Reads true ns args as (some [])) (hp : putAll true slots as = .ok slots') :
    parse E zs opts = .exit .dbgAssert ∨ (parse E zs opts = .exit .alloc ∧ E.Refuses ((args.map List.length).sum + 73)) := by
  have h := C56_exact (E := E) ht h0 hs hz hh (by rw [hE]; exact hrd)
  rw [hE, hp, bind_ok, if_pos ⟨rfl, rfl⟩] at h
  exact h.symm

/-- **C55, disagreement.** In every debug build, for every table: an empty value for an option of string type ends the program, whatever follows. -/
theorem C55_empty_value_ends {E : Env} (hE : E.debug = true) {vs : List Val} {opts : List Opt} {ns : Names} {slots : List Slot} {zs : List Mem}
    {args : List Text} {as : List (Nat × Text)} {j : Nat} {w : Option Text} (ht : IsTable opts ns) (h0 : opts ≠ []) (hs : HoldAll vs opts slots)
    (hz : List.Forall₂ CStr zs args) (hh : ¬ AsksHelp args) (hrd : Reads true ns args ((j, []) :: as) none) (hj : slots[j]? = some (.str w)) :
    parse E zs opts = .exit .dbgAssert ∨ (parse E zs opts = .exit .alloc ∧ E.Refuses ((args.map List.length).sum + 73)) := by
  have h := C55_exact (E := E) ht h0 hs hz hh (by rw [hE]; exact hrd)
  rw [hE, putAll, hj] at h
  simp only [Slot.put, and_self, if_true, bind_exit] at h
  exact h.symm

/-- Example: the empty argument is read as an option with an empty name in release builds only. -/
example : Reads true [([97], [])] [[97, 61, 98], []] [(0, [98])] (some []) ∧ Reads false [([97], [])] [[97, 61, 98], []] [(0, [98]), (0, [49])] none :=
  ⟨.keyVal (k := [97]) (v := [98]) (by simp) (by simp) ⟨⟨_, rfl, by simp⟩, by simp⟩ (.unknown (Or.inr (by simp)) (Or.inr ⟨rfl, rfl⟩)),
   .keyVal (k := [97]) (v := [98]) (by simp) (by simp) ⟨⟨_, rfl, by simp⟩, by simp⟩
    (.flag (Or.inr (by simp)) ⟨⟨_, rfl, by simp⟩, by simp⟩ (by simp) (by simp) .done)⟩

/-- Giving values to one option. -/
def Slot.putMany (debug : Bool) : Slot → List Text → Out Slot
  | s, [] => .ok s
  | s, v :: vs => s.put debug v >>= fun s => s.putMany debug vs

/-- **C55.** What an option holds after successful parsing depends on its own values only, in their order. -/
theorem C55_own_values {debug : Bool} : ∀ {as : List (Nat × Text)} {slots slots' : List Slot}, putAll debug slots as = .ok slots' →
    slots'.length = slots.length ∧ ∀ (j : Nat) s, slots[j]? = some s →
      ∃ s', slots'[j]? = some s' ∧ s.putMany debug ((as.filter fun a => a.1 = j).map (·.2)) = .ok s'
  | [], slots, slots', h => by
    rw [putAll, Out.ok.injEq] at h
    subst h
    exact ⟨rfl, fun j s hs => ⟨s, hs, rfl⟩⟩
  | (i, v) :: as, slots, slots', h => by
    rw [putAll] at h
    cases hi : slots[i]? with
    | none => rw [hi] at h; cases h
    | some s0 =>
      rw [hi] at h
      obtain ⟨s1, e1, h⟩ := bind_eq_ok.1 h
      obtain ⟨hl, ih⟩ := C55_own_values h
      refine ⟨by simpa using hl, fun j s hs => ?_⟩
      by_cases e : i = j
      · subst e
        rw [hi] at hs
        obtain rfl := Option.some.inj hs
        obtain ⟨s', g1, g2⟩ := ih i s1 (List.getElem?_set_self (List.getElem?_eq_some_iff.1 hi).1)
        refine ⟨s', g1, ?_⟩
        rw [List.filter_cons, if_pos (by simp), List.map_cons, Slot.putMany, e1, bind_ok]
        exact g2
      · obtain ⟨s', g1, g2⟩ := ih j s (by rw [List.getElem?_set_ne e]; exact hs)
        refine ⟨s', g1, ?_⟩
        rw [List.filter_cons, if_neg (by simpa using e)]
        exact g2

/-- The variable has the declared type and is well formed. -/
def Sound (o : Opt) : Prop :=
  ∃ val, o.value = some val ∧
    match o.ty, val with
    | .str, .str (some a) => ∃ t, IsStr a t
    | .str, .str none => True
    | .str, _ => False
    | .cstr, .cstr (some m) => ∃ t, scanZ m = .ok t
    | .cstr, .cstr none => True
    | .cstr, _ => False
    | .bad, _ => False
    | _, _ => True

/-- The hypothesis of C55 and C56 on the variables is met for all tables with well formed variables. -/
theorem exists_slots {opts : List Opt} (h : ∀ o ∈ opts, Sound o) : ∃ vs slots, HoldAll vs opts slots := by
  induction opts with
  | nil => exact ⟨[], [], rfl, rfl, by simp⟩
  | cons o opts ih =>
    obtain ⟨vs, slots, i1, i2, i3⟩ := ih fun o ho => h o (by simp [ho])
    obtain ⟨val, hv, hs⟩ := h o (by simp)
    have : ∃ s, HoldsSlot val o s := by
      obtain ⟨ol, os, ov, ty⟩ := o
      dsimp only at hs
      cases ty with
      | str =>
        cases val with
        | str a =>
          cases a with
          | none => exact ⟨.str none, _, hv, rfl, rfl⟩
          | some a => obtain ⟨t, ht⟩ := hs; exact ⟨.str (some t), _, hv, rfl, a, rfl, ht⟩
        | _ => exact hs.elim
      | cstr =>
        cases val with
        | cstr m =>
          cases m with
          | none => exact ⟨.cstr none, _, hv, rfl, rfl⟩
          | some m => obtain ⟨t, ht⟩ := hs; exact ⟨.cstr (some t), _, hv, rfl, m, rfl, ht⟩
        | _ => exact hs.elim
      | bad => exact hs.elim
      | rest => exact ⟨.other, _, hv, rfl, rfl⟩
      | int T => exact ⟨.plain none, _, hv, nofun, nofun, nofun, nofun, rfl⟩
      | flt T => exact ⟨.plain none, _, hv, nofun, nofun, nofun, nofun, rfl⟩
      | bool => exact ⟨.plain none, _, hv, nofun, nofun, nofun, nofun, rfl⟩
      | char => exact ⟨.plain none, _, hv, nofun, nofun, nofun, nofun, rfl⟩
    obtain ⟨s, hs⟩ := this
    refine ⟨val :: vs, s :: slots, by simp [i1], by simp [i2], ?_⟩
    intro j v0 o' s' g1 g2 g3
    cases j with
    | zero =>
      simp only [List.getElem?_cons_zero, Option.some.injEq] at g1 g2 g3
      subst g1 g2 g3
      exact hs
    | succ j => exact i3 j v0 o' s' (by simpa using g1) (by simpa using g2) (by simpa using g3)

/-- Example: a longer value over a shorter one. -/
example : putAll true [.plain none, .str none, .cstr none] [(2, [97, 98]), (0, [53]), (2, [97]), (1, [99])] =
      .ok [.plain (some [53]), .str (some [99]), .cstr (some [97, 98])] ∧
    putAll true [.cstr none] [(0, [97]), (0, [97, 98])] = .ub ∧ putAll true [.str none] [(0, [])] = .exit .dbgAssert := ⟨rfl, rfl, rfl⟩

end Vita
