import Verif.Model.ArgShared
import Verif.Props.ArgExact
/-!
# Options that share a variable (C124)
-/

namespace Vita
open Out ArgOpt Spec
seal wadd wsub wmul

/-! ### Specification -/

/-- The variables, of the types `tys`, hold what the slots say; `vs` are their initial contents. -/
def VarsHold (vs : List Val) (tys : List Ty) (vars : List Val) (slots : List Slot) : Prop :=
  vs.length = vars.length ∧ slots.length = vars.length ∧
    ∀ (k : Nat) v0 ty val s, vs[k]? = some v0 → tys[k]? = some ty → vars[k]? = some val → slots[k]? = some s → HoldsSlot v0 ⟨none, none, some val, ty⟩ s

/-- The table has these names; option `j` has the variable `var j`, of the type of the option.  Nothing says that different options have different variables. -/
def IsShTable (opts : List ShOpt) (ns : Names) (var : Nat → Nat) (tys : List Ty) : Prop :=
  opts.length = ns.length ∧ ∀ (j : Nat) o p, opts[j]? = some o → ns[j]? = some p →
    ∃ l s, o.long = some l ∧ CStr l p.1 ∧ o.short = some s ∧ CStr s p.2 ∧ p.2.length ≤ 3 ∧ o.var = some (var j) ∧ tys[var j]? = some o.ty ∧ o.ty ≠ .bad

/-- The assignments to options as assignments to their variables. -/
def onVars (var : Nat → Nat) (as : List (Nat × Text)) : List (Nat × Text) := as.map fun a => (var a.1, a.2)

/-! ### Lemmas -/

theorem IsShTable.tail {o : ShOpt} {opts : List ShOpt} {p : Text × Text} {ns : Names} {var : Nat → Nat} {tys : List Ty}
    (h : IsShTable (o :: opts) (p :: ns) var tys) : IsShTable opts ns (fun j => var (j + 1)) tys :=
  ⟨by simpa using h.1, fun j o' p' ho hp => h.2 (j + 1) o' p' (by simpa using ho) (by simpa using hp)⟩

theorem sh_validate {vars : List Val} : ∀ {opts : List ShOpt} {ns : Names} {var : Nat → Nat} {tys : List Ty}, IsShTable opts ns var tys →
    tys.length = vars.length → validate (opts.map (·.view vars)) = .ok true
  | [], _, _, _, _, _ => rfl
  | o :: opts, [], _, _, h, _ => by simp [IsShTable] at h
  | o :: opts, p :: ns, var, tys, h, hl => by
    obtain ⟨l, s, h1, -, h3, h4, h5, h6, h7, h8⟩ := h.2 0 o p rfl rfl
    have hk : var 0 < vars.length := by rw [← hl]; exact (List.getElem?_eq_some_iff.1 h7).1
    rw [List.map_cons, validate]
    simp only [ShOpt.view, h1, h3, h6, Option.bind_some, List.getElem?_eq_getElem hk, strnlen_ok h4.text, bind_ok, h8, if_false]
    rw [if_neg (by omega)]
    exact sh_validate h.tail hl

/-- What is done with the option found. -/
def shAct (E : Env) (sOpt sArg : Arr) (next : Option Mem) (vars : List Val) (o : ShOpt) : Out (Bool × List Val × Bool) :=
  if sOpt.len ≠ 0 then assignSh E vars o sArg.mem >>= fun vars => .ok (true, vars, false)
  else
    match next with
    | some n => getc n 0 >>= fun c =>
      if c ≠ 45 then assignSh E vars o n >>= fun vars => .ok (true, vars, true) else assignSh E vars o oneZ >>= fun vars => .ok (true, vars, false)
    | none => assignSh E vars o oneZ >>= fun vars => .ok (true, vars, false)

theorem tryOptsSh_cons (E : Env) (sOpt sArg : Arr) (next : Option Mem) (vars : List Val) (o : ShOpt) (os : List ShOpt) :
    tryOptsSh E sOpt sArg next vars (o :: os) = matches_ (if sOpt.len ≠ 0 then sOpt.mem else sArg.mem) (o.view vars) >>= fun b =>
      if b then shAct E sOpt sArg next vars o else tryOptsSh E sOpt sArg next vars os := by
  rw [tryOptsSh.eq_def]
  simp only [shAct]
  split
  · rfl
  · congr 1

theorem tryOptsSh_hit {E : Env} {sOpt sArg : Arr} {next : Option Mem} {vars : List Val} {z : Mem} {k : Text} (hz : CStr z k)
    (he : z = if sOpt.len ≠ 0 then sOpt.mem else sArg.mem) : ∀ {opts : List ShOpt} {ns : Names} {var : Nat → Nat} {tys : List Ty}, IsShTable opts ns var tys →
      ∀ {j : Nat} {o : ShOpt}, ns.Option k j → opts[j]? = some o → tryOptsSh E sOpt sArg next vars opts = shAct E sOpt sArg next vars o
  | [], _, _, _, _, _, _, _, ho => by simp at ho
  | a :: opts, [], _, _, h, _, _, _, _ => by simp [IsShTable] at h
  | a :: opts, p :: ns, var, tys, h, j, o, hj, ho => by
    obtain ⟨l, s, h1, h2, h3, h4, -⟩ := h.2 0 a p rfl rfl
    obtain ⟨⟨q, hq, hk⟩, hb⟩ := hj
    rw [tryOptsSh_cons, ← he, matches_eq (o := a.view vars) h1 h2 h3 h4 hz, bind_ok]
    cases j with
    | zero =>
      simp only [List.getElem?_cons_zero, Option.some.injEq] at hq ho
      subst hq ho
      rw [decide_eq_true hk, if_pos rfl]
    | succ j =>
      have h5 := hb 0 (by omega) p rfl
      rw [decide_eq_false (by rintro (e | e); exact h5.1 e; exact h5.2 e), if_neg (by simp)]
      exact tryOptsSh_hit hz he h.tail ⟨⟨q, by simpa using hq, hk⟩, fun i hi p' hp' => hb (i + 1) (by omega) p' (by simpa using hp')⟩ (by simpa using ho)

theorem tryOptsSh_unknown {E : Env} {sOpt sArg : Arr} {next : Option Mem} {vars : List Val} {z : Mem} {k : Text} (hz : CStr z k)
    (he : z = if sOpt.len ≠ 0 then sOpt.mem else sArg.mem) : ∀ {opts : List ShOpt} {ns : Names} {var : Nat → Nat} {tys : List Ty}, IsShTable opts ns var tys →
      ns.Unknown k → tryOptsSh E sOpt sArg next vars opts = .ok (false, vars, false)
  | [], _, _, _, _, _ => rfl
  | a :: opts, [], _, _, h, _ => by simp [IsShTable] at h
  | a :: opts, p :: ns, var, tys, h, hu => by
    obtain ⟨l, s, h1, h2, h3, h4, -⟩ := h.2 0 a p rfl rfl
    have h5 := hu p (by simp)
    rw [tryOptsSh_cons, ← he, matches_eq (o := a.view vars) h1 h2 h3 h4 hz, bind_ok,
      decide_eq_false (by rintro (e | e); exact h5.1 e; exact h5.2 e), if_neg (by simp)]
    exact tryOptsSh_unknown hz he h.tail fun q hq => hu q (by simp [hq])

/-- Assigning to the variable of an option. -/
theorem assignSh_like {E : Env} {vs : List Val} {tys : List Ty} {vars : List Val} {slots : List Slot} (hl : tys.length = vars.length) (hh : VarsHold vs tys vars slots)
    {o : ShOpt} {k : Nat} (ho : o.var = some k) (ht : tys[k]? = some o.ty) {z : Mem} {v : Text} (hz : CStr z v) :
    ∃ s, slots[k]? = some s ∧ LikeOr E (v.length + 56) (assignSh E vars o z)
      (fun vars' s' => tys.length = vars'.length ∧ VarsHold vs tys vars' (slots.set k s')) (s.put E.debug v) := by
  have hk : k < tys.length := (List.getElem?_eq_some_iff.1 ht).1
  have hk1 : k < vars.length := by omega
  have hk2 : k < slots.length := by rw [hh.2.1]; omega
  have hk3 : k < vs.length := by rw [hh.1]; omega
  refine ⟨slots[k], by simp, ?_⟩
  have h := assign_like (E := E) (hh.2.2 k vs[k] o.ty vars[k] slots[k] (by simp) ht (by simp) (by simp)) hz
  simp only [assignSh, ho, List.getElem?_eq_getElem hk1]
  simp only [assign] at h
  have key : ∀ val s', Put vs[k] ⟨none, none, some vars[k], o.ty⟩ ⟨none, none, some val, o.ty⟩ s' →
      tys.length = (vars.set k val).length ∧ VarsHold vs tys (vars.set k val) (slots.set k s') := by
    intro val s' hp
    refine ⟨by simpa using hl, by simpa using hh.1, by simpa using hh.2.1, fun i v0 ty w s g1 g2 g3 g4 => ?_⟩
    by_cases e : k = i
    · subst e
      rw [List.getElem?_set_self hk1] at g3
      rw [List.getElem?_set_self hk2] at g4
      rw [ht] at g2
      rw [List.getElem?_eq_getElem hk3] at g1
      cases g1; cases g2; cases g3; cases g4
      exact hp.2.2.2
    · rw [List.getElem?_set_ne e] at g3 g4
      exact hh.2.2 i v0 ty w s g1 g2 g3 g4
  generalize assignValue E o.ty vars[k] z = r at h ⊢
  rcases h with ⟨h, hr⟩ | h
  · left
    refine ⟨?_, hr⟩
    cases r <;> simp_all
  · right
    revert h
    cases Slot.put E.debug slots[k] v with
    | ok s' =>
      rintro ⟨o', e, hp⟩
      cases r with
      | ok val =>
        simp only [bind_ok, Out.ok.injEq] at e
        subst e
        exact ⟨_, rfl, key val s' hp⟩
      | _ => cases e
    | exit w =>
      intro h
      cases r with
      | ok val => cases h
      | _ => simp_all
    | ub =>
      intro h
      cases r with
      | ok val => cases h
      | _ => simp_all
    | fuel =>
      intro h
      cases r with
      | ok val => cases h
      | _ => simp_all

/-- What is left after some of the arguments. -/
structure ShSame (vs : List Val) (tys : List Ty) (vars : List Val) (slots : List Slot) : Prop where
  len : tys.length = vars.length
  hold : VarsHold vs tys vars slots

theorem IsShTable.at {opts : List ShOpt} {ns : Names} {var : Nat → Nat} {tys : List Ty} (h : IsShTable opts ns var tys) {k : Text} {j : Nat} (hj : ns.Option k j) :
    ∃ o, opts[j]? = some o ∧ o.var = some (var j) ∧ tys[var j]? = some o.ty := by
  obtain ⟨⟨p, hp, -⟩, -⟩ := hj
  have hl : j < opts.length := by rw [h.1]; exact (List.getElem?_eq_some_iff.1 hp).1
  obtain ⟨l, s, -, -, -, -, -, h1, h2, -⟩ := h.2 j opts[j] p (by simp) hp
  exact ⟨opts[j], by simp, h1, h2⟩

theorem parseLoopSh_like {E : Env} {vs : List Val} {ns : Names} {var : Nat → Nat} {tys : List Ty} {opts : List ShOpt} (hT : IsShTable opts ns var tys)
    {args : List Text} {as : List (Nat × Text)} {r : Option Text}
    (hrd : Reads E.debug ns args as r) : ∀ {zs : List Mem} {vars : List Val} {slots : List Slot} {sArg sOpt : Arr}, List.Forall₂ CStr zs args →
      ShSame vs tys vars slots → IsStr sArg [] → IsStr sOpt [] →
      LikeOr E (sOpt.cap + (args.map List.length).sum + 57) (parseLoopSh E opts false zs sArg sOpt vars) (fun q p => q.1 = p.1 ∧ ShSame vs tys q.2 p.2)
        (ends E.debug slots (onVars var as) r) := by
  induction hrd with
  | done =>
    intro zs vars slots sArg sOpt hz hs h1 h2
    cases hz
    rw [parseLoopSh]
    exact Or.inr ⟨_, rfl, rfl, hs⟩
  | @keyVal k v j rest as r hk hk' hj hrd ih =>
    intro zs vars slots sArg sOpt hz ht h1 h2
    cases hz with
    | @cons z _ zs _ hz hzs =>
    rw [parseLoopSh]
    refine (append_arg h1 hz (Or.inl (by simp))).like fun s hs => ?_
    refine (popGetFirst_okOr hs cstr_eqZ (by simp) (sr := some sOpt) (fun x hx => ⟨[], by cases hx; exact h2⟩) (isFirst_key hk')
      (List.length_pos_iff.2 hk)).like ?_ (by simp [capOf]; omega)
    rintro ⟨so, s'⟩ ⟨x, hx, hx1, hx2, hxc, -⟩
    simp only [capOf] at hx hx2 hxc
    subst hx
    simp only [List.take_left] at hx1
    have hx2 : IsStr s' v := by
      have e : (k ++ 61 :: v).drop (k.length + 1) = v := by rw [← List.drop_drop]; simp
      have := hx2
      simp only [List.length_singleton] at this
      rw [e] at this
      exact this
    obtain ⟨o, g2, g3, g4⟩ := hT.at hj
    have hne : x.len ≠ 0 := by rw [hx1.len]; have := List.length_pos_iff.2 hk; omega
    obtain ⟨sl, g5, g6⟩ := assignSh_like (E := E) ht.len ht.hold g3 g4 hx2.cstr
    simp only []
    rw [tryOptsSh_hit hx1.cstr (if_pos hne).symm hT hj g2, shAct.eq_def, if_pos hne]
    simp only [onVars, List.map_cons]
    rw [ends_cons g5]
    simp only [Out.bind_assoc, bind_ok]
    refine g6.bind fun vars' s1 hp => ?_
    simp only [Bool.not_true, Bool.false_eq_true, if_false]
    obtain ⟨s2, e2, hs2, -⟩ := clear_ok hx2
    obtain ⟨s3, e3, hs3, hc3, -⟩ := clear_ok hx1
    rw [e2, bind_ok, e3, bind_ok]
    exact (ih hzs ⟨hp.1, hp.2⟩ hs2 hs3).mono fun _ _ h => h
  | @value a v j rest as r hp hj hne hv hrd ih =>
    intro zs vars slots sArg sOpt hz ht h1 h2
    cases hz with
    | @cons z _ zs _ hz hzs =>
    cases hzs with
    | @cons zv _ zs _ hzv hzs =>
    rw [parseLoopSh]
    refine (append_arg h1 hz (ne_or hne)).like fun s hs => ?_
    obtain ⟨o, g2, g3, g4⟩ := hT.at hj
    have h0 : ¬ sOpt.len ≠ 0 := by rw [h2.len]; simp
    obtain ⟨sl, g5, g6⟩ := assignSh_like (E := E) ht.len ht.hold g3 g4 hzv
    rw [popGetFirst_plain hs hp, bind_ok]
    simp only [List.head?_cons]
    rw [tryOptsSh_hit hs.cstr (if_neg h0).symm hT hj g2, shAct.eq_def, if_neg h0]
    simp only [getc_head hzv, bind_ok]
    rw [if_pos (fun e => hv ((headD_eq hzv.nz (by decide)).1 e))]
    simp only [onVars, List.map_cons]
    rw [ends_cons g5]
    simp only [Out.bind_assoc, bind_ok]
    refine g6.bind fun vars' s1 hp => ?_
    simp only [Bool.not_true, Bool.false_eq_true, if_false]
    obtain ⟨s2, e2, hs2, -⟩ := clear_ok hs
    obtain ⟨s3, e3, hs3, hc3, -⟩ := clear_ok h2
    rw [e2, bind_ok, e3, bind_ok]
    show LikeOr E _ (parseLoopSh E opts false zs s2 s3 vars') _ _
    exact (ih hzs ⟨hp.1, hp.2⟩ hs2 hs3).mono fun _ _ h => h
  | @flag a j rest as r hp hj hne hv hrd ih =>
    intro zs vars slots sArg sOpt hz ht h1 h2
    cases hz with
    | @cons z _ zs _ hz hzs =>
    rw [parseLoopSh]
    refine (append_arg h1 hz (ne_or hne)).like fun s hs => ?_
    obtain ⟨o, g2, g3, g4⟩ := hT.at hj
    have h0 : ¬ sOpt.len ≠ 0 := by rw [h2.len]; simp
    obtain ⟨sl, g5, g6⟩ := assignSh_like (E := E) ht.len ht.hold g3 g4 cstr_oneZ
    rw [popGetFirst_plain hs hp, bind_ok]
    simp only []
    rw [tryOptsSh_hit hs.cstr (if_neg h0).symm hT hj g2]
    have ha : shAct E sOpt s zs.head? vars o = assignSh E vars o oneZ >>= fun vars => .ok (true, vars, false) := by
      rw [shAct.eq_def, if_neg h0]
      cases hzs with
      | nil => rfl
      | @cons zv v zs rest hzv hzs =>
        simp only [List.head?_cons, getc_head hzv, bind_ok]
        rw [if_neg (by simp only [ne_eq, not_not]; exact (headD_eq hzv.nz (by decide)).2 (hv v rfl))]
    rw [ha]
    simp only [onVars, List.map_cons]
    rw [ends_cons g5]
    simp only [Out.bind_assoc, bind_ok]
    refine g6.bind fun vars' s1 hp => ?_
    simp only [Bool.not_true, Bool.false_eq_true, if_false]
    obtain ⟨s2, e2, hs2, -⟩ := clear_ok hs
    obtain ⟨s3, e3, hs3, hc3, -⟩ := clear_ok h2
    rw [e2, bind_ok, e3, bind_ok]
    exact (ih hzs ⟨hp.1, hp.2⟩ hs2 hs3).mono fun _ _ h => h
  | @unknownKey k v rest hk hk' hu =>
    intro zs vars slots sArg sOpt hz ht h1 h2
    cases hz with
    | @cons z _ zs _ hz hzs =>
    rw [parseLoopSh]
    refine (append_arg h1 hz (Or.inl (by simp))).like fun s hs => ?_
    refine (popGetFirst_okOr hs cstr_eqZ (by simp) (sr := some sOpt) (fun x hx => ⟨[], by cases hx; exact h2⟩) (isFirst_key hk')
      (List.length_pos_iff.2 hk)).like ?_ (by simp [capOf]; omega)
    rintro ⟨so, s'⟩ ⟨x, hx, hx1, hx2, hxc, -⟩
    simp only [capOf] at hx hx2 hxc
    subst hx
    simp only [List.take_left] at hx1
    have hne : x.len ≠ 0 := by rw [hx1.len]; have := List.length_pos_iff.2 hk; omega
    simp only []
    rw [tryOptsSh_unknown hx1.cstr (if_pos hne).symm hT hu, bind_ok]
    simp only [onVars, List.map_nil, ends, putAll, bind_ok]
    rw [if_neg (show ¬ (some (k ++ 61 :: v) = some [] ∧ E.debug = true) by simp)]
    exact Or.inr ⟨_, rfl, rfl, ht⟩
  | @unknown a rest hp hu =>
    intro zs vars slots sArg sOpt hz ht h1 h2
    cases hz with
    | @cons z _ zs _ hz hzs =>
    rw [parseLoopSh]
    simp only [onVars, List.map_nil, ends, putAll, bind_ok]
    by_cases hc : a = [] ∧ E.debug = true
    · obtain ⟨rfl, hd⟩ := hc
      rw [(C17_debug_rejects_empty hd hz).2.2.1 _ _ h1, bind_exit, if_pos ⟨rfl, hd⟩]
      exact Or.inr rfl
    rw [if_neg (by simpa using hc)]
    refine (append_arg h1 hz (by by_cases h0 : a = []; exact Or.inr (by simpa [h0] using hc); exact Or.inl h0)).like fun s hs => ?_
    have hu : ns.Unknown a := hu.elim id fun h => absurd ⟨h.2, h.1⟩ hc
    have h0 : ¬ sOpt.len ≠ 0 := by rw [h2.len]; simp
    rw [popGetFirst_plain hs hp, bind_ok]
    simp only []
    rw [tryOptsSh_unknown hs.cstr (if_neg h0).symm hT hu, bind_ok]
    exact Or.inr ⟨_, rfl, rfl, ht⟩

theorem parseSh_like {E : Env} {vs : List Val} {opts : List ShOpt} {ns : Names} {var : Nat → Nat} {tys : List Ty} {vars : List Val} {slots : List Slot}
    {zs : List Mem} {args : List Text} {as : List (Nat × Text)} {r : Option Text} (hT : IsShTable opts ns var tys) (h0 : opts ≠ [])
    (hl : tys.length = vars.length) (hs : VarsHold vs tys vars slots) (hz : List.Forall₂ CStr zs args) (hh : ¬ AsksHelp args) (hrd : Reads E.debug ns args as r) :
    LikeOr E ((args.map List.length).sum + 73) (parseSh E zs opts vars) (fun q p => q.1 = p.1 ∧ ShSame vs tys q.2 p.2) (ends E.debug slots (onVars var as) r) := by
  obtain ⟨b, hb, hb'⟩ := helpWanted_eq hz
  have : b = false := by
    cases b
    · rfl
    · exact absurd (hb'.1 rfl) hh
  subst this
  unfold parseSh
  rw [decide_eq_true (show opts.length ≥ 1 from List.length_pos_iff.2 h0), enforce_true, bind_ok, sh_validate hT hl, bind_ok]
  simp only [Bool.not_true, Bool.false_eq_true, if_false, hb, bind_ok]
  refine (createCapacity_okOr (by decide) (by decide)).like (fun s1 h1 => ?_) (by simp [defaultInit])
  refine (createCapacity_okOr (by decide) (by decide)).like (fun s2 h2 => ?_) (by simp [defaultInit])
  exact (parseLoopSh_like hT hrd hz ⟨hl, hs⟩ h1.1 h2.1).mono (fun _ _ h => h) (by rw [h2.2.1]; simp [defaultInit]; omega)

/-! ### C124 -/

/-- **C124.** For every table, also one in which several options share a variable, and every argument list whose arguments are all recognised: parsing assigns the
values to the variables of the options named, in the order of the arguments, and ends with status 0, or as the first assignment that fails does. -/
theorem C124_shared {E : Env} {vs : List Val} {opts : List ShOpt} {ns : Names} {var : Nat → Nat} {tys : List Ty} {vars : List Val} {slots : List Slot}
    {zs : List Mem} {args : List Text} {as : List (Nat × Text)} (hT : IsShTable opts ns var tys) (h0 : opts ≠ []) (hl : tys.length = vars.length)
    (hs : VarsHold vs tys vars slots) (hz : List.Forall₂ CStr zs args) (hh : ¬ AsksHelp args) (hrd : Reads E.debug ns args as none) :
    LikeOr E ((args.map List.length).sum + 73) (parseSh E zs opts vars) (fun q slots' => q.1 = 0 ∧ VarsHold vs tys q.2 slots')
      (putAll E.debug slots (onVars var as)) := by
  have h := parseSh_like (E := E) hT h0 hl hs hz hh hrd
  simp only [ends] at h
  cases hp : putAll E.debug slots (onVars var as) with
  | ok sl =>
    rw [hp, bind_ok, if_neg (by simp)] at h
    rcases h with h | ⟨q, e, h1, h2⟩
    · exact Or.inl h
    · exact Or.inr ⟨q, e, h1, h2.hold⟩
  | exit w => rw [hp] at h; exact h
  | ub => rw [hp] at h; exact h
  | fuel => rw [hp] at h; exact h

/-- **C124.** The same for an argument list with an argument `a` that is not recognised: the assignments before it have been performed; then the status is -1, except
that an empty argument ends a debug build. -/
theorem C124_unrecognised {E : Env} {vs : List Val} {opts : List ShOpt} {ns : Names} {var : Nat → Nat} {tys : List Ty} {vars : List Val} {slots : List Slot}
    {zs : List Mem} {args : List Text} {as : List (Nat × Text)} {a : Text} (hT : IsShTable opts ns var tys) (h0 : opts ≠ []) (hl : tys.length = vars.length)
    (hs : VarsHold vs tys vars slots) (hz : List.Forall₂ CStr zs args) (hh : ¬ AsksHelp args) (hrd : Reads E.debug ns args as (some a)) :
    LikeOr E ((args.map List.length).sum + 73) (parseSh E zs opts vars) (fun q slots' => q.1 = -1 ∧ VarsHold vs tys q.2 slots')
      (putAll E.debug slots (onVars var as) >>= fun slots' => if a = [] ∧ E.debug = true then .exit .dbgAssert else .ok slots') := by
  have h := parseSh_like (E := E) hT h0 hl hs hz hh hrd
  simp only [ends, Option.some.injEq, reduceCtorEq, if_false] at h
  cases hp : putAll E.debug slots (onVars var as) with
  | ok sl =>
    rw [hp, bind_ok] at h
    rw [bind_ok]
    split at h
    · next hc => rw [if_pos hc]; exact h
    · next hc =>
      rw [if_neg hc]
      rcases h with h | ⟨q, e, h1, h2⟩
      · exact Or.inl h
      · exact Or.inr ⟨q, e, h1, h2.hold⟩
  | exit w => rw [hp] at h; exact h
  | ub => rw [hp] at h; exact h
  | fuel => rw [hp] at h; exact h

theorem putMany_plain {debug : Bool} : ∀ (l : List Text) (w : Option Text), Slot.putMany debug (.plain w) l = .ok (.plain (l.getLast?.or w))
  | [], w => rfl
  | v :: l, w => by
    rw [Slot.putMany, Slot.put, bind_ok, putMany_plain l (some v), List.getLast?_cons]
    cases l.getLast? <;> rfl

theorem putMany_str {debug : Bool} : ∀ (l : List Text) (w : Option Text) (s : Slot), Slot.putMany debug (.str w) l = .ok s → s = .str (l.getLast?.or w)
  | [], w, s, h => by cases h; rfl
  | v :: l, w, s, h => by
    rw [Slot.putMany, Slot.put] at h
    obtain ⟨s1, e1, h⟩ := bind_eq_ok.1 h
    split at e1
    · cases e1
    cases e1
    rw [putMany_str l _ s h, List.getLast?_cons]
    cases l.getLast? <;> rfl

theorem lastValue_eq (as : List (Nat × Text)) (j : Nat) : lastValue as j = ((as.filter fun a => a.1 = j).map (·.2)).getLast? := by
  rw [lastValue, List.getLast?_map]
  rfl

/-- **C124.** After successful parsing a variable that is not a C string holds the last of the values given with any of the options that share it; if there is none it
is as before. -/
theorem C124_last_wins_partial {E : Env} {vs : List Val} {opts : List ShOpt} {ns : Names} {var : Nat → Nat} {tys : List Ty} {vars : List Val}
    {slots : List Slot} {zs : List Mem} {args : List Text} {as : List (Nat × Text)} (hT : IsShTable opts ns var tys) (h0 : opts ≠ [])
    (hl : tys.length = vars.length) (hs : VarsHold vs tys vars slots) (hz : List.Forall₂ CStr zs args) (hh : ¬ AsksHelp args) (hrd : Reads E.debug ns args as none) {q : Int × List Val} (hq : parseSh E zs opts vars = .ok q) :
    q.1 = 0 ∧ ∀ (k : Nat) v0 ty, vs[k]? = some v0 → tys[k]? = some ty →
      (∀ w, slots[k]? = some (.plain w) → ∃ val, q.2[k]? = some val ∧ HoldsSlot v0 ⟨none, none, some val, ty⟩ (.plain ((lastValue (onVars var as) k).or w))) ∧
      (∀ w, slots[k]? = some (.str w) → ∃ val, q.2[k]? = some val ∧ HoldsSlot v0 ⟨none, none, some val, ty⟩ (.str ((lastValue (onVars var as) k).or w))) := by
  have h := parseSh_like (E := E) hT h0 hl hs hz hh hrd
  rcases h with ⟨h, -⟩ | h
  · rw [hq] at h; cases h
  simp only [ends] at h
  cases hp : putAll E.debug slots (onVars var as) with
  | ok sl =>
    rw [hp, bind_ok, if_neg (by simp)] at h
    obtain ⟨q', e, h1, h2⟩ := h
    rw [hq, Out.ok.injEq] at e
    subst e
    have hown := C55_own_values hp
    have hlen : q.2.length = vs.length := h2.hold.1.symm
    refine ⟨h1, fun k v0 ty g1 g2 => ⟨fun w hw => ?_, fun w hw => ?_⟩⟩
    · obtain ⟨s', e1, e2⟩ := hown.2 k _ hw
      rw [putMany_plain, ← lastValue_eq, Out.ok.injEq] at e2
      have hk : k < q.2.length := by rw [hlen]; exact (List.getElem?_eq_some_iff.1 g1).1
      exact ⟨q.2[k], by simp, h2.hold.2.2 k v0 ty _ _ g1 g2 (by simp) (by rw [e1, ← e2])⟩
    · obtain ⟨s', e1, e2⟩ := hown.2 k _ hw
      have e3 := putMany_str _ _ _ e2
      rw [← lastValue_eq] at e3
      have hk : k < q.2.length := by rw [hlen]; exact (List.getElem?_eq_some_iff.1 g1).1
      exact ⟨q.2[k], by simp, h2.hold.2.2 k v0 ty _ _ g1 g2 (by simp) (by rw [e1, e3])⟩
  | exit w => rw [hp] at h; change parseSh E zs opts vars = .exit w at h; rw [hq] at h; cases h
  | ub => rw [hp] at h; change parseSh E zs opts vars = .ub at h; rw [hq] at h; cases h
  | fuel => rw [hp] at h; change parseSh E zs opts vars = .fuel at h; rw [hq] at h; cases h

/-- **C124, disagreement.** For C strings this fails: a first value `u` that is not empty, given with one option, and then a longer value `v`, given with another
option for the same variable, which is null at first: the second one is written past the end of the block made for the first one. -/
theorem C124_longer_alias_overruns {E : Env} {vs : List Val} {opts : List ShOpt} {ns : Names} {var : Nat → Nat} {tys : List Ty} {vars : List Val}
    {slots : List Slot} {zs : List Mem} {args : List Text} {i j : Nat} {u v : Text} (hT : IsShTable opts ns var tys) (h0 : opts ≠ [])
    (hl : tys.length = vars.length) (hs : VarsHold vs tys vars slots) (hz : List.Forall₂ CStr zs args) (hh : ¬ AsksHelp args)
    (hrd : Reads E.debug ns args [(i, u), (j, v)] none) (hij : var i = var j) (hn : slots[var i]? = some (.cstr none)) (hu : u ≠ [])
    (hv : u.length < v.length) :
    parseSh E zs opts vars = .ub ∨ (parseSh E zs opts vars = .exit .alloc ∧ E.Refuses ((args.map List.length).sum + 73)) := by
  have h := C124_shared (E := E) hT h0 hl hs hz hh hrd
  have hp : putAll E.debug slots (onVars var [(i, u), (j, v)]) = .ub := by
    simp only [onVars, List.map_cons, List.map_nil, putAll, hn, Slot.put, bind_ok, ← hij]
    rw [List.getElem?_set_self (List.getElem?_eq_some_iff.1 hn).1]
    simp only [Slot.put, if_neg (Nat.not_le.2 hv), if_neg hu, bind_ub]
  rw [hp] at h
  exact h.symm

/-! ### Options with variables of their own -/

/-- Different options have different variables. -/
def OwnVars (opts : List ShOpt) : Prop := opts.Pairwise fun o o' => ∀ k, o.var = some k → o'.var ≠ some k

theorem assignSh_else {E : Env} {vars vars' : List Val} {o : ShOpt} {z : Mem} (h : assignSh E vars o z = .ok vars') {k : Nat} (hk : o.var ≠ some k) :
    vars'[k]? = vars[k]? := by
  unfold assignSh at h
  split at h
  · cases h
  · next i hi =>
    split at h
    · cases h
    · obtain ⟨v, -, h⟩ := bind_eq_ok.1 h
      cases h
      rw [List.getElem?_set_ne]
      rintro rfl
      exact hk hi

theorem view_congr {vars vars' : List Val} {o : ShOpt} (h : ∀ k, o.var = some k → vars'[k]? = vars[k]?) : o.view vars' = o.view vars := by
  unfold ShOpt.view
  cases hv : o.var with
  | none => rfl
  | some k => simp only [Option.bind_some, h k hv]

theorem assign_view {E : Env} {vars : List Val} {o : ShOpt} (z : Mem) : assign E (o.view vars) z = assignSh E vars o z >>= fun vars' => .ok (o.view vars') := by
  unfold assign assignSh
  cases hv : o.var with
  | none => simp [ShOpt.view, hv]
  | some k =>
    simp only [ShOpt.view, hv, Option.bind_some]
    cases hk : vars[k]? with
    | none => rfl
    | some v =>
      simp only [Out.bind_assoc, bind_ok]
      congr 1
      funext w
      rw [List.getElem?_set_self (List.getElem?_eq_some_iff.1 hk).1]

/-- Assigning to one option leaves the others as they are. -/
theorem shAct_else {E : Env} {sOpt sArg : Arr} {next : Option Mem} {vars : List Val} {o : ShOpt} {q : Bool × List Val × Bool}
    (h : shAct E sOpt sArg next vars o = .ok q) {k : Nat} (hk : o.var ≠ some k) : q.2.1[k]? = vars[k]? := by
  have key : ∀ z (f : List Val → Bool × List Val × Bool), (∀ v, (f v).2.1 = v) → (assignSh E vars o z >>= fun v => .ok (f v)) = .ok q → q.2.1[k]? = vars[k]? := by
    intro z f hf h
    obtain ⟨v, e, h⟩ := bind_eq_ok.1 h
    cases h
    rw [hf]
    exact assignSh_else e hk
  rw [shAct.eq_def] at h
  split at h
  · exact key _ _ (fun _ => rfl) h
  · split at h
    · obtain ⟨c, -, h⟩ := bind_eq_ok.1 h
      split at h
      · exact key _ _ (fun _ => rfl) h
      · exact key _ _ (fun _ => rfl) h
    · exact key _ _ (fun _ => rfl) h

theorem tryOptsSh_else {E : Env} {sOpt sArg : Arr} {next : Option Mem} {vars : List Val} {k : Nat} : ∀ {opts : List ShOpt} {q : Bool × List Val × Bool},
    tryOptsSh E sOpt sArg next vars opts = .ok q → (∀ o ∈ opts, o.var ≠ some k) → q.2.1[k]? = vars[k]?
  | [], q, h, _ => by cases h; rfl
  | o :: os, q, h, hk => by
    rw [tryOptsSh_cons] at h
    obtain ⟨b, -, h⟩ := bind_eq_ok.1 h
    cases b with
    | true => exact shAct_else h (hk o (by simp))
    | false => exact tryOptsSh_else h fun o' ho' => hk o' (by simp [ho'])

theorem tryOpts_views {E : Env} {sOpt sArg : Arr} {next : Option Mem} {vars : List Val} : ∀ {opts : List ShOpt}, OwnVars opts →
    tryOpts E sOpt sArg next (opts.map (·.view vars)) = tryOptsSh E sOpt sArg next vars opts >>= fun q => .ok (q.1, opts.map (·.view q.2.1), q.2.2)
  | [], _ => rfl
  | o :: os, h => by
    obtain ⟨h1, h2⟩ := List.pairwise_cons.1 h
    have ih := tryOpts_views (E := E) (sOpt := sOpt) (sArg := sArg) (next := next) (vars := vars) h2
    have hh : ∀ z (c : Bool), (assign E (o.view vars) z >>= fun o' => .ok (true, o' :: os.map (·.view vars), c)) =
        (assignSh E vars o z >>= fun v => .ok (true, v, c)) >>= fun q => .ok (q.1, (o :: os).map (·.view q.2.1), q.2.2) := by
      intro z c
      rw [assign_view]
      cases e : assignSh E vars o z with
      | ok v =>
        have : os.map (·.view v) = os.map (·.view vars) := List.map_congr_left fun o' ho' => view_congr fun k hk =>
          assignSh_else e fun hc => h1 o' ho' k hc hk
        simp only [bind_ok, List.map_cons, this]
      | exit w => rfl
      | ub => rfl
      | fuel => rfl
    have ht : (tryOpts E sOpt sArg next (os.map (·.view vars)) >>= fun q => .ok (q.1, o.view vars :: q.2.1, q.2.2)) =
        tryOptsSh E sOpt sArg next vars os >>= fun q => .ok (q.1, (o :: os).map (·.view q.2.1), q.2.2) := by
      rw [ih]
      cases e : tryOptsSh E sOpt sArg next vars os with
      | ok q =>
        have : o.view q.2.1 = o.view vars := view_congr fun k hk => tryOptsSh_else e fun o' ho' hc => h1 o' ho' k hk hc
        simp only [bind_ok, List.map_cons, this]
      | exit w => rfl
      | ub => rfl
      | fuel => rfl
    rw [tryOptsSh_cons, List.map_cons, tryOpts.eq_def, shAct.eq_def]
    simp only [Out.bind_assoc]
    by_cases hc : sOpt.len ≠ 0
    · simp only [if_pos hc]
      congr 1
      funext b
      cases b with
      | true => exact hh _ _
      | false => exact ht
    · simp only [if_neg hc]
      congr 1
      funext b
      cases b with
      | false => exact ht
      | true =>
        cases next with
        | none => exact hh _ _
        | some n =>
          simp only [if_true, Out.bind_assoc]
          congr 1
          funext c
          split
          · exact hh _ _
          · exact hh _ _

theorem parseLoop_views {E : Env} {opts : List ShOpt} (h : OwnVars opts) : ∀ (zs : List Mem) (skip : Bool) (sArg sOpt : Arr) (vars : List Val),
    parseLoop E skip zs sArg sOpt (opts.map (·.view vars)) = parseLoopSh E opts skip zs sArg sOpt vars >>= fun q => .ok (q.1, opts.map (·.view q.2))
  | [], skip, _, _, _ => by cases skip <;> rfl
  | _ :: zs, true, sArg, sOpt, vars => parseLoop_views h zs false sArg sOpt vars
  | a :: zs, false, sArg, sOpt, vars => by
    rw [parseLoop, parseLoopSh]
    simp only [Out.bind_assoc]
    congr 1
    funext s
    congr 1
    funext q
    obtain ⟨so, s'⟩ := q
    cases so with
    | none => rfl
    | some so =>
      simp only [Out.bind_assoc]
      rw [tryOpts_views h]
      simp only [Out.bind_assoc, bind_ok]
      congr 1
      funext q
      obtain ⟨f, vars', u⟩ := q
      cases f with
      | false => rfl
      | true =>
        simp only [Bool.not_true, Bool.false_eq_true, if_false, Out.bind_assoc]
        congr 1
        funext s2
        congr 1
        funext s3
        exact parseLoop_views h zs u s2 s3 vars'

/-- **C124.** If different options have different variables this is the parsing of C55 and C56: the same outcome, and the variables hold what the options of that
model hold. -/
theorem C124_own_variables {E : Env} {opts : List ShOpt} (h : OwnVars opts) (zs : List Mem) (vars : List Val) :
    parse E zs (opts.map (·.view vars)) = parseSh E zs opts vars >>= fun q => .ok (q.1, opts.map (·.view q.2)) := by
  unfold parse parseSh
  simp only [List.length_map, Out.bind_assoc]
  congr 1
  funext u
  congr 1
  funext v
  cases v with
  | false => rfl
  | true =>
    simp only [Bool.not_true, Bool.false_eq_true, if_false, Out.bind_assoc]
    congr 1
    funext b
    cases b with
    | true => rfl
    | false =>
      simp only [Bool.false_eq_true, if_false, Out.bind_assoc]
      congr 1
      funext s1
      congr 1
      funext s2
      exact parseLoop_views h zs false s1 s2 vars

/-! ### Examples -/

/-- "--color"/"-c" and "--colour"/"-C" for one integer, "--name"/"-n" and "--alias"/"-a" for one C string. -/
def exShared : List ShOpt :=
  [⟨some (zstr (chars' "--color")), some (zstr (chars' "-c")), some 0, .int ⟨true, 32⟩⟩,
   ⟨some (zstr (chars' "--colour")), some (zstr (chars' "-C")), some 0, .int ⟨true, 32⟩⟩,
   ⟨some (zstr (chars' "--name")), some (zstr (chars' "-n")), some 1, .cstr⟩,
   ⟨some (zstr (chars' "--alias")), some (zstr (chars' "-a")), some 1, .cstr⟩]

/-- Example: the last value counts whichever name it was given with; a shorter C string leaves the end of the longer one. -/
example : parseSh exE (argv ["--color=5", "-n", "xy", "-C", "12", "--alias=z"]) exShared [.int 7, .cstr none] =
    .ok (0, [.int 12, .cstr (some (zstr [122, 121]))]) := by decide +kernel

/-- Example: a longer value under the second name. -/
example : parseSh exE (argv ["-n", "xy", "-a", "xyz"]) exShared [.int 7, .cstr none] = .ub := by decide +kernel

/-- Example: the table of the example meets the hypotheses. -/
example : IsShTable exShared [(chars' "--color", chars' "-c"), (chars' "--colour", chars' "-C"), (chars' "--name", chars' "-n"), (chars' "--alias", chars' "-a")]
      (fun j => j / 2) [.int ⟨true, 32⟩, .cstr] ∧
    VarsHold [.int 7, .cstr none] [.int ⟨true, 32⟩, .cstr] [.int 7, .cstr none] [.plain none, .cstr none] := by
  refine ⟨⟨rfl, ?_⟩, rfl, rfl, ?_⟩
  · intro j o p ho hp
    match j with
    | 0 | 1 | 2 | 3 =>
      cases ho; cases hp
      exact ⟨_, _, rfl, cstr_zstr (by decide +kernel) (by decide +kernel), rfl, cstr_zstr (by decide +kernel) (by decide +kernel), by decide +kernel, rfl, rfl, nofun⟩
    | j + 4 => simp [exShared] at ho
  · intro k v0 ty val s h1 h2 h3 h4
    match k with
    | 0 => cases h1; cases h2; cases h3; cases h4; exact ⟨_, rfl, nofun, nofun, nofun, nofun, rfl⟩
    | 1 => cases h1; cases h2; cases h3; cases h4; exact ⟨_, rfl, rfl, rfl⟩
    | k + 2 => simp at h1

end Vita
