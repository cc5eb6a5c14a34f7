import Verif.Model.ArgOpt
import Verif.Spec.ArgOpt
import Verif.Props.ConvFloat
import Verif.Props.StrQuery
/-!
# Argument parsing (C55, C56, C57, C73, C74)
-/

namespace Vita
open Out ArgOpt Spec
seal wadd wsub wmul

/-- What an option of the given type is to hold after the value `v` was given for it. -/
def OptHolds (ty : Ty) (v : Text) (val : Val) : Prop :=
  match ty, val with
  | .int T, .int x => Conv.strToT T (zstr v) = .ok x
  | .flt f, .flt x => Conv.strToF f (zstr v) = .ok x
  | .bool, .bool b => b = true ↔ v.head? = some 49 ∨ v = [116, 114, 117, 101]
  | .char, .char c => c = v.headD 0
  | .str, .str (some s) => IsStr s v
  | .cstr, .cstr (some m) => scanZ m = .ok v
  | _, _ => False

/-- The variable has the declared type and can take the value `v`: string objects are well formed and `v` is not empty; a C string is a null
pointer or has the length of `v` (the restriction that C57 is about). -/
def Ready (ty : Ty) (v : Text) (val : Val) : Prop :=
  match ty, val with
  | .int _, .int _ => True
  | .flt _, .flt _ => True
  | .bool, .bool _ => True
  | .char, .char _ => True
  | .str, .str none => v ≠ []
  | .str, .str (some s) => v ≠ [] ∧ ∃ u, IsStr s u
  | .cstr, .cstr none => True
  | .cstr, .cstr (some m) => ∃ u, scanZ m = .ok u ∧ u.length = v.length
  | _, _ => False

theorem assignCstr_new {E : Env} {z : Mem} {v : Text} (hz : CStr z v) :
    OkOr E (v.length + 1) (assignCstr E none z) fun m => m = v.map some ++ [some 0] := by
  have hl := hz.lim
  simp only [assignCstr, strlen_ok hz.text, bind_ok, wadd_eq (show v.length + 1 < 2 ^ 64 by omega)]
  cases ha : E.allocOk (v.length + 1) with
  | false => rw [vtCalloc_fail (by omega) ha]; exact Or.inr ⟨rfl, _, Nat.le_refl _, ha⟩
  | true =>
    rw [vtCalloc_ok (by omega) ha]
    simp only [bind_ok, hz.text]
    rw [writeN_ok (by simp)]
    exact OkOr.ok (by simp)

theorem assignCstr_same {E : Env} {z zv : Mem} {v u : Text} (hz : CStr z v) (hu : scanZ zv = .ok u) (hl : u.length = v.length) :
    ∃ m, assignCstr E (some zv) z = .ok m ∧ scanZ m = .ok v ∧ m.length = zv.length := by
  obtain ⟨⟨rest, rfl⟩, -⟩ := scanZ_eq_ok.1 hu
  obtain ⟨⟨rest', rfl⟩, hnz⟩ := scanZ_eq_ok.1 hz.text
  simp only [assignCstr, strlen_ok hz.text, strlen_ok hu, bind_ok]
  rw [if_neg (by omega), memcpyIn_ok (by simp) (by simp; omega)]
  refine ⟨_, rfl, ?_, by simp; omega⟩
  rw [scanZ_eq_ok]
  refine ⟨⟨rest, ?_⟩, hnz⟩
  simp [← hl]

theorem getc_head {z : Mem} {t : Text} (h : CStr z t) : getc z 0 = .ok (t.headD 0) := by
  cases t with
  | nil => exact getc_end h.text
  | cons c t => exact getc_text h.text (i := 0) (by simp)

theorem headD_eq {t : Text} (hn : 0 ∉ t) {c : UInt8} (hc : c ≠ 0) : t.headD 0 = c ↔ t.head? = some c := by
  cases t with
  | nil => simp [hc.symm]
  | cons d t => simp

theorem cstr_trueZ : CStr trueZ [116, 114, 117, 101] := ⟨by decide, by decide⟩
theorem cstr_oneZ : CStr oneZ [49] := ⟨by decide, by decide⟩
theorem cstr_eqZ : CStr eqZ [61] := ⟨by decide, by decide⟩
theorem cstr_hZ : CStr hZ [45, 104] := ⟨by decide, by decide⟩
theorem cstr_helpZ : CStr helpZ [45, 45, 104, 101, 108, 112] := ⟨by decide, by decide⟩

theorem assignValue_okOr {E : Env} {ty : Ty} {val : Val} {z : Mem} {v : Text} (hz : CStr z v) (hr : Ready ty v val) :
    OkOr E (v.length + 56) (assignValue E ty val z) fun val' => OptHolds ty v val' := by
  cases ty with
  | int T =>
    simp only [assignValue, strToT_eq hz, bind_ok]
    refine OkOr.ok ?_
    simp only [OptHolds]
    exact strToT_eq (cstr_zstr hz.nz hz.lim) T
  | flt f =>
    simp only [assignValue, convStrToF_eq hz, bind_ok]
    refine OkOr.ok ?_
    simp only [OptHolds]
    exact convStrToF_eq (cstr_zstr hz.nz hz.lim) f
  | bool =>
    simp only [assignValue, getc_head hz, bind_ok]
    by_cases h : v.headD 0 = 49
    · rw [if_pos h]
      exact OkOr.ok (by simp [OptHolds, (headD_eq hz.nz (by decide)).1 h])
    · rw [if_neg h, C33_equals_z hz cstr_trueZ, bind_ok]
      exact OkOr.ok (by
        have : ¬ v.head? = some 49 := fun e => h ((headD_eq hz.nz (by decide)).2 e)
        simp only [OptHolds, this, false_or, decide_eq_true_eq])
  | char => simp only [assignValue, getc_head hz, bind_ok]; exact OkOr.ok rfl
  | str =>
    cases val with
    | str o =>
      cases o with
      | none =>
        simp only [assignValue]
        exact (create_okOr hz hr).bind fun s hs => OkOr.ok hs.1
      | some s =>
        obtain ⟨h0, u, hu⟩ := hr
        simp only [assignValue]
        obtain ⟨s', e, hs', -⟩ := clear_ok hu
        rw [e, bind_ok]
        exact (append_okOr hs' hz h0).bind fun s hs => OkOr.ok (by simpa [OptHolds] using hs.1)
    | _ => exact hr.elim
  | cstr =>
    cases val with
    | cstr o =>
      cases o with
      | none =>
        simp only [assignValue]
        exact (assignCstr_new hz).bind fun m hm => OkOr.ok (by
          simp only [OptHolds, hm]; exact scanZ_eq_ok.2 ⟨⟨[], by simp⟩, hz.nz⟩)
      | some m =>
        obtain ⟨u, hu, hl⟩ := hr
        obtain ⟨m', e, hm', -⟩ := assignCstr_same (E := E) hz hu hl
        simp only [assignValue, e, bind_ok]
        exact OkOr.ok hm'
    | _ => exact hr.elim
  | rest => exact (by cases val <;> exact hr.elim)
  | bad => exact (by cases val <;> exact hr.elim)

example : assignValue exE (.flt binary64) (.flt (.fin false 0)) (zstr [50, 46, 53]) = .ok (.flt (.fin false (5 / 2))) := by decide +kernel

/-- A value of the right kind is ready for the next value; for a C string the length has to be the same. -/
theorem OptHolds.ready {ty : Ty} {v v' : Text} {val val' : Val} (h : OptHolds ty v val) (hr : Ready ty v' val') (hc : ty = .cstr → v'.length = v.length) :
    Ready ty v' val := by
  cases ty with
  | str =>
    cases val with
    | str o =>
      cases o with
      | none => exact h.elim
      | some s =>
        refine ⟨?_, _, h⟩
        cases val' with
        | str o => cases o with
          | none => exact hr
          | some s => exact hr.1
        | _ => exact hr.elim
    | _ => exact h.elim
  | cstr =>
    cases val with
    | cstr o =>
      cases o with
      | none => exact h.elim
      | some m => exact ⟨v, h, (hc rfl).symm⟩
    | _ => exact h.elim
  | _ => cases val <;> first | exact trivial | exact h.elim

/-- The table: names, a variable for every option, a known type. -/
def IsTable (opts : List Opt) (ns : Names) : Prop :=
  List.Forall₂ (fun o p => ∃ l s v, o.long = some l ∧ CStr l p.1 ∧ o.short = some s ∧ CStr s p.2 ∧ p.2.length ≤ 3 ∧ o.value = some v ∧ o.ty ≠ .bad)
    opts ns

/-- The effect of the assignments `as` on the table: each option holds the last value given for it, options not mentioned are unchanged. -/
def After (opts : List Opt) (as : List (Nat × Text)) (opts' : List Opt) : Prop :=
  opts'.length = opts.length ∧ ∀ j o, opts[j]? = some o → ∃ o', opts'[j]? = some o' ∧ o'.long = o.long ∧ o'.short = o.short ∧ o'.ty = o.ty ∧
    match lastValue as j with
    | none => o'.value = o.value
    | some v => ∃ val, o'.value = some val ∧ OptHolds o.ty v val

/-- All assignments are possible: see `Ready`; values for the same C string have the same length. -/
def AllReady (opts : List Opt) (as : List (Nat × Text)) : Prop :=
  ∀ j v, (j, v) ∈ as → ∃ o val, opts[j]? = some o ∧ o.value = some val ∧ Ready o.ty v val ∧
    (o.ty = .cstr → ∀ v', (j, v') ∈ as → v'.length = v.length)

/-! ### Searching the table -/

/-- The inner loop with the key at `z` and what is done with the option found. -/
def search (z : Mem) (act : Opt → Out (Opt × Bool)) : List Opt → Out (Bool × List Opt × Bool)
  | [] => .ok (false, [], false)
  | o :: os => do
    let b ← matches_ z o
    if b then do
      let (o, c) ← act o
      .ok (true, o :: os, c)
    else do
      let (f, os, c) ← search z act os
      .ok (f, o :: os, c)

/-- Case 1. -/
def act1 (E : Env) (sArg : Arr) (o : Opt) : Out (Opt × Bool) := do
  let o ← assign E o sArg.mem
  .ok (o, false)

/-- Case 2. -/
def act2 (E : Env) (next : Option Mem) (o : Opt) : Out (Opt × Bool) :=
  match next with
  | some n => do
    let c ← getc n 0
    if c ≠ 45 then do
      let o ← assign E o n
      .ok (o, true)
    else do
      let o ← assign E o oneZ
      .ok (o, false)
  | none => do
    let o ← assign E o oneZ
    .ok (o, false)

theorem tryOpts_key {E : Env} {sOpt sArg : Arr} (h : sOpt.len ≠ 0) (next : Option Mem) :
    ∀ opts, tryOpts E sOpt sArg next opts = search sOpt.mem (act1 E sArg) opts
  | [] => rfl
  | o :: os => by
    rw [tryOpts.eq_def, search.eq_def]
    simp only []
    rw [if_pos h, tryOpts_key h next os]
    congr 1
    funext b
    cases b
    · rfl
    · simp only [if_true, act1, Out.bind_assoc, bind_ok]

theorem tryOpts_plain {E : Env} {sOpt sArg : Arr} (h : sOpt.len = 0) (next : Option Mem) :
    ∀ opts, tryOpts E sOpt sArg next opts = search sArg.mem (act2 E next) opts
  | [] => rfl
  | o :: os => by
    rw [tryOpts.eq_def, search.eq_def]
    simp only []
    rw [if_neg (by omega), tryOpts_plain h next os]
    congr 1
    funext b
    cases b
    · rfl
    · simp only [if_true, act2]
      cases next with
      | none => simp only [Out.bind_assoc, bind_ok]
      | some n =>
        simp only [Out.bind_assoc]
        congr 1
        funext c
        split
        · simp only [Out.bind_assoc, bind_ok]
        · simp only [Out.bind_assoc, bind_ok]

theorem matches_eq {o : Opt} {p : Text × Text} {l s : Mem} (hl : o.long = some l) (h1 : CStr l p.1) (hs : o.short = some s) (h2 : CStr s p.2)
    {z : Mem} {k : Text} (hz : CStr z k) : matches_ z o = .ok (decide (p.1 = k ∨ p.2 = k)) := by
  simp only [matches_, hl, hs, C33_equals_z hz h1, C33_equals_z hz h2, bind_ok]
  by_cases h : k = p.1
  · simp [h]
  · have : ¬ p.1 = k := fun e => h e.symm
    simp only [h, this, decide_false, Bool.false_eq_true, if_false, false_or]
    congr 2
    exact propext eq_comm

theorem search_unknown {opts : List Opt} {ns : Names} (ht : IsTable opts ns) {z : Mem} {k : Text} (hz : CStr z k) (hu : ns.Unknown k)
    (act : Opt → Out (Opt × Bool)) : search z act opts = .ok (false, opts, false) := by
  induction ht with
  | nil => rfl
  | @cons o p os ns h _ ih =>
    obtain ⟨l, s, v, h1, h2, h3, h4, -, -, -⟩ := h
    have h5 := hu p (by simp)
    rw [search, matches_eq h1 h2 h3 h4 hz, bind_ok, decide_eq_false (by rintro (e | e); exact h5.1 e; exact h5.2 e)]
    simp only [Bool.false_eq_true, if_false]
    rw [ih fun q hq => hu q (by simp [hq])]
    rfl

theorem search_found {E : Env} {opts : List Opt} {ns : Names} (ht : IsTable opts ns) {z : Mem} {k : Text} (hz : CStr z k) {j : Nat}
    (hj : ns.Option k j) {act : Opt → Out (Opt × Bool)} {Q : Opt → Opt × Bool → Prop} {B : Nat}
    (ha : ∀ o, opts[j]? = some o → OkOr E B (act o) (Q o)) :
    OkOr E B (search z act opts) fun q => ∃ o o' c, opts[j]? = some o ∧ Q o (o', c) ∧ q = (true, opts.set j o', c) := by
  induction ht generalizing j with
  | nil => obtain ⟨⟨p, hp, -⟩, -⟩ := hj; simp at hp
  | @cons o p os ns h _ ih =>
    obtain ⟨l, s, v, h1, h2, h3, h4, -, -, -⟩ := h
    obtain ⟨⟨q, hq, hk⟩, hb⟩ := hj
    rw [search, matches_eq h1 h2 h3 h4 hz, bind_ok]
    cases j with
    | zero =>
      simp only [List.getElem?_cons_zero, Option.some.injEq] at hq
      subst hq
      rw [decide_eq_true hk, if_pos rfl]
      refine (ha o rfl).bind ?_
      rintro ⟨o', c⟩ hQ
      exact OkOr.ok ⟨o, o', c, rfl, hQ, rfl⟩
    | succ j =>
      have h5 := hb 0 (by omega) p rfl
      rw [decide_eq_false (by rintro (e | e); exact h5.1 e; exact h5.2 e), if_neg (by simp)]
      refine (ih ⟨⟨q, by simpa using hq, hk⟩, fun i hi p' hp' => hb (i + 1) (by omega) p' (by simpa using hp')⟩
        (fun o ho => ha o (by simpa using ho))).bind ?_
      rintro ⟨f, os', c⟩ ⟨o1, o2, c', hg, hQ, e⟩
      obtain ⟨rfl, rfl, rfl⟩ := by simpa using e
      exact OkOr.ok ⟨o1, o2, c, by simpa using hg, hQ, rfl⟩

/-! ### The loop -/

theorem IsTable.set {opts : List Opt} {ns : Names} (ht : IsTable opts ns) {j : Nat} {o o' : Opt} (ho : opts[j]? = some o)
    (h1 : o'.long = o.long) (h2 : o'.short = o.short) (h3 : o'.ty = o.ty) (h4 : ∃ v, o'.value = some v) : IsTable (opts.set j o') ns := by
  induction ht generalizing j with
  | nil => simp at ho
  | @cons a p os ns h hr ih =>
    cases j with
    | zero =>
      simp only [List.getElem?_cons_zero, Option.some.injEq] at ho
      subst ho
      obtain ⟨l, s, v, a1, a2, a3, a4, a5, a6, a7⟩ := h
      obtain ⟨v', hv⟩ := h4
      exact List.Forall₂.cons ⟨l, s, v', by rw [h1, a1], a2, by rw [h2, a3], a4, a5, hv, by rw [h3]; exact a7⟩ hr
    | succ j => exact List.Forall₂.cons h (ih (by simpa using ho))

/-- One assignment, as seen in the table. -/
def Assigned (o : Opt) (v : Text) (o' : Opt) : Prop :=
  o'.long = o.long ∧ o'.short = o.short ∧ o'.ty = o.ty ∧ ∃ val, o'.value = some val ∧ OptHolds o.ty v val

theorem assign_okOr {E : Env} {o : Opt} {val : Val} (hv : o.value = some val) {z : Mem} {v : Text} (hz : CStr z v) (hr : Ready o.ty v val) :
    OkOr E (v.length + 56) (assign E o z) (Assigned o v) := by
  simp only [assign, hv]
  exact (assignValue_okOr hz hr).bind fun val' h => OkOr.ok ⟨rfl, rfl, rfl, val', rfl, h⟩

theorem After.step {opts opts' : List Opt} {j : Nat} {o o1 : Opt} {v : Text} {as : List (Nat × Text)} (ho : opts[j]? = some o)
    (h1 : Assigned o v o1) (h : After (opts.set j o1) as opts') : After opts ((j, v) :: as) opts' := by
  obtain ⟨a1, a2, a3, val, a4, a5⟩ := h1
  refine ⟨by simpa using h.1, fun i oi hi => ?_⟩
  rw [lastValue_cons]
  by_cases e : j = i
  · subst e
    have hl : j < opts.length := (List.getElem?_eq_some_iff.1 ho).1
    obtain ⟨o', g1, g2, g3, g4, g5⟩ := h.2 j o1 (by simp [hl])
    rw [ho] at hi
    obtain rfl := Option.some.inj hi
    refine ⟨o', g1, by rw [g2, a1], by rw [g3, a2], by rw [g4, a3], ?_⟩
    cases hlv : lastValue as j with
    | none =>
      rw [hlv] at g5
      simp only at g5
      simp only [Option.none_or, if_true]
      exact ⟨val, by rw [g5, a4], a5⟩
    | some w =>
      rw [hlv] at g5
      simp only at g5
      simp only [Option.some_or]
      rw [a3] at g5
      exact g5
  · obtain ⟨o', g1, g2, g3, g4, g5⟩ := h.2 i oi (by rw [List.getElem?_set_ne e]; exact hi)
    refine ⟨o', g1, g2, g3, g4, ?_⟩
    simpa [if_neg e] using g5

theorem AllReady.step {opts : List Opt} {j : Nat} {o o1 : Opt} {v : Text} {as : List (Nat × Text)} (ho : opts[j]? = some o)
    (h1 : Assigned o v o1) (h : AllReady opts ((j, v) :: as)) : AllReady (opts.set j o1) as := by
  obtain ⟨a1, a2, a3, val, a4, a5⟩ := h1
  intro i w hw
  obtain ⟨oi, vi, b1, b2, b3, b4⟩ := h i w (by simp [hw])
  by_cases e : j = i
  · subst e
    have hl : j < opts.length := (List.getElem?_eq_some_iff.1 ho).1
    rw [ho] at b1
    obtain rfl := Option.some.inj b1
    refine ⟨o1, val, by simp [hl], a4, ?_, ?_⟩
    · rw [a3]
      exact a5.ready b3 fun hc => (b4 hc v (by simp)).symm
    · rw [a3]
      exact fun hc v' hv' => b4 hc v' (by simp [hv'])
  · exact ⟨oi, vi, by rw [List.getElem?_set_ne e]; exact b1, b2, b3, fun hc v' hv' => b4 hc v' (by simp [hv'])⟩

theorem isFirst_key {k v : Text} (h : 61 ∉ k) : IsFirst (k ++ 61 :: v) [61] k.length := by
  refine ⟨⟨k, v, by simp, rfl⟩, ?_⟩
  rintro j hj ⟨a, b, e, rfl⟩
  have e1 : (k ++ 61 :: v)[a.length]? = some 61 := by rw [e]; simp
  rw [List.getElem?_append_left hj] at e1
  exact h (List.mem_of_getElem? e1)

theorem popGetFirst_plain {E : Env} {v : Arr} {t : Text} (h : IsStr v t) (hp : Plain t) (sr : Option Arr) :
    Str.popGetFirst E sr v eqZ = .ok (sr, v) := by
  simp only [Str.popGetFirst, strlen_ok cstr_eqZ.text, bind_ok]
  by_cases h0 : t = []
  · rw [if_pos (by left; rw [h.len, h0]; rfl)]
  · rw [if_neg (by rw [h.len]; have := List.length_pos_iff.2 h0; simp; omega), strstr0 h.text cstr_eqZ.text, bind_ok]
    have hlim := h.lim
    have hle := h.le
    rcases hp with hp | hp
    · obtain ⟨c, t', rfl⟩ := List.exists_cons_of_ne_nil h0
      simp only [List.head?_cons, Option.some.injEq] at hp
      subst hp
      have hf := findSub_some.2 (isFirst_key (k := []) (v := t') (by simp))
      rw [List.nil_append] at hf
      rw [hf]
      simp only [List.length_nil, strlenAt_ok h.text (Nat.zero_le _), bind_ok]
      rw [if_pos (by rw [h.len, wsub_eq (by omega) (by omega)]; omega)]
    · rw [findSub_none.2]
      rintro ⟨i, a, b, e, -⟩
      rw [e] at hp
      simp at hp

theorem append_arg {E : Env} {s : Arr} (hs : IsStr s []) {z : Mem} {a : Text} (hz : CStr z a) (h0 : a ≠ [] ∨ E.debug = false) :
    OkOr E (a.length + 1) (Str.append E s z) fun s' => IsStr s' a := by
  by_cases ha : a = []
  · subst ha
    rw [append_eq hz]
    obtain ⟨v', e, hv, -⟩ := appendN_ok (E := E) hs hz.nz hz.begins (by simp) (Or.inr (by simpa using h0)) (Or.inl (by simp))
    rw [e]
    exact OkOr.ok hv
  · exact (append_okOr hs hz ha).mono fun s' h => by simpa using h.1

theorem skip_one {E : Env} {n : Mem} {rest : List Mem} {a b : Arr} {opts : List Opt} :
    parseLoop E true (n :: rest) a b opts = parseLoop E false rest a b opts := by
  rw [parseLoop]

theorem ne_or {b : Bool} {a : Text} (h : b = true → a ≠ []) : a ≠ [] ∨ b = false := by
  cases b
  · exact Or.inr rfl
  · exact Or.inl (h rfl)

theorem parseLoop_okOr {E : Env} {ns : Names} {args : List Text} {as : List (Nat × Text)} {r : Option Text} (hrd : Reads E.debug ns args as r) :
    ∀ {zs : List Mem} {opts : List Opt} {sArg sOpt : Arr}, List.Forall₂ CStr zs args → IsTable opts ns → AllReady opts as →
      IsStr sArg [] → IsStr sOpt [] → (E.debug = false ∨ r ≠ some []) →
      OkOr E (sOpt.cap + (args.map List.length).sum + 57) (parseLoop E false zs sArg sOpt opts) fun q => q.1 = (if r = none then 0 else -1) ∧ After opts as q.2 := by
  induction hrd with
  | done =>
    intro zs opts sArg sOpt hz ht hr h1 h2 hE
    cases hz
    rw [parseLoop]
    exact OkOr.ok ⟨rfl, rfl, fun j o ho => ⟨o, ho, rfl, rfl, rfl, rfl⟩⟩
  | @keyVal k v j rest as r hk hk' hj hrd ih =>
    intro zs opts sArg sOpt hz ht hr h1 h2 hE
    cases hz with
    | @cons z _ zs _ hz hzs =>
    rw [parseLoop]
    refine (append_arg h1 hz (Or.inl (by simp))).bind fun s hs => ?_
    refine (popGetFirst_okOr hs cstr_eqZ (by simp) (sr := some sOpt) (fun x hx => ⟨[], by cases hx; exact h2⟩) (isFirst_key hk')
      (List.length_pos_iff.2 hk)).bind ?_ (by simp [capOf]; omega)
    rintro ⟨so, s'⟩ ⟨x, hx, hx1, hx2, hxc, -⟩
    simp only [capOf] at hx hx2 hxc
    subst hx
    simp only [List.take_left] at hx1
    have hx2 : IsStr s' v := by
      have e : (k ++ 61 :: v).drop (k.length + 1) = v := by rw [← List.drop_drop]; simp
      have := hx2
      simp only [List.length_singleton] at this
      rw [e] at this
      exact this
    simp only []
    rw [tryOpts_key (by rw [hx1.len]; have := List.length_pos_iff.2 hk; omega)]
    obtain ⟨o0, val0, g1, g2, g3, g4⟩ := hr j v (by simp)
    refine (search_found ht hx1.cstr hj (Q := fun o q => Assigned o v q.1 ∧ q.2 = false) (B := v.length + 56) ?_).bind ?_
    · intro o ho
      rw [g1] at ho
      obtain rfl := Option.some.inj ho
      exact (assign_okOr g2 hx2.cstr g3).bind fun o' h => OkOr.ok ⟨h, rfl⟩
    · rintro ⟨f, opts1, c⟩ ⟨o, o', c', q1, ⟨q2, q3⟩, e⟩
      simp only [Prod.mk.injEq] at e q2 q3
      obtain ⟨rfl, rfl, rfl⟩ := e
      subst q3
      simp only [Bool.not_true, Bool.false_eq_true, if_false]
      obtain ⟨s2, e2, hs2, -⟩ := clear_ok hx2
      obtain ⟨s3, e3, hs3, hc3, -⟩ := clear_ok hx1
      rw [e2, bind_ok, e3, bind_ok]
      have ht' := ht.set q1 q2.1 q2.2.1 q2.2.2.1 (q2.2.2.2.imp fun _ h => h.1)
      exact (ih hzs ht' (hr.step q1 q2) hs2 hs3 hE).mono fun q hq => ⟨hq.1, hq.2.step q1 q2⟩
  | @value a v j rest as r hp hj hne hv hrd ih =>
    intro zs opts sArg sOpt hz ht hr h1 h2 hE
    cases hz with
    | @cons z _ zs _ hz hzs =>
    cases hzs with
    | @cons zv _ zs _ hzv hzs =>
    rw [parseLoop]
    refine (append_arg h1 hz (ne_or hne)).bind fun s hs => ?_
    rw [popGetFirst_plain hs hp, bind_ok]
    simp only [List.head?_cons]
    rw [tryOpts_plain (by rw [h2.len]; rfl)]
    obtain ⟨o0, val0, g1, g2, g3, g4⟩ := hr j v (by simp)
    refine (search_found ht hs.cstr hj (Q := fun o q => Assigned o v q.1 ∧ q.2 = true) (B := v.length + 56) ?_).bind ?_
    · intro o ho
      rw [g1] at ho
      obtain rfl := Option.some.inj ho
      simp only [act2, getc_head hzv, bind_ok]
      rw [if_pos (fun e => hv ((headD_eq hzv.nz (by decide)).1 e))]
      exact (assign_okOr g2 hzv g3).bind fun o' h => OkOr.ok ⟨h, rfl⟩
    · rintro ⟨f, opts1, c⟩ ⟨o, o', c', q1, ⟨q2, q3⟩, e⟩
      simp only [Prod.mk.injEq] at e q2 q3
      obtain ⟨rfl, rfl, rfl⟩ := e
      subst q3
      simp only [Bool.not_true, Bool.false_eq_true, if_false]
      obtain ⟨s2, e2, hs2, -⟩ := clear_ok hs
      obtain ⟨s3, e3, hs3, hc3, -⟩ := clear_ok h2
      rw [e2, bind_ok, e3, bind_ok, skip_one]
      have ht' := ht.set q1 q2.1 q2.2.1 q2.2.2.1 (q2.2.2.2.imp fun _ h => h.1)
      exact (ih hzs ht' (hr.step q1 q2) hs2 hs3 hE).mono fun q hq => ⟨hq.1, hq.2.step q1 q2⟩
  | @flag a j rest as r hp hj hne hv hrd ih =>
    intro zs opts sArg sOpt hz ht hr h1 h2 hE
    cases hz with
    | @cons z _ zs _ hz hzs =>
    rw [parseLoop]
    refine (append_arg h1 hz (ne_or hne)).bind fun s hs => ?_
    rw [popGetFirst_plain hs hp, bind_ok]
    simp only []
    rw [tryOpts_plain (by rw [h2.len]; rfl)]
    obtain ⟨o0, val0, g1, g2, g3, g4⟩ := hr j [49] (by simp)
    refine (search_found ht hs.cstr hj (Q := fun o q => Assigned o [49] q.1 ∧ q.2 = false) (B := 57) ?_).bind ?_
    · intro o ho
      rw [g1] at ho
      obtain rfl := Option.some.inj ho
      cases hzs with
      | nil => exact (assign_okOr g2 cstr_oneZ g3).bind fun o' h => OkOr.ok ⟨h, rfl⟩
      | @cons zv v zs rest hzv hzs =>
        simp only [act2, List.head?_cons, getc_head hzv, bind_ok]
        rw [if_neg (by simp only [ne_eq, not_not]; exact (headD_eq hzv.nz (by decide)).2 (hv v rfl))]
        exact (assign_okOr g2 cstr_oneZ g3).bind fun o' h => OkOr.ok ⟨h, rfl⟩
    · rintro ⟨f, opts1, c⟩ ⟨o, o', c', q1, ⟨q2, q3⟩, e⟩
      simp only [Prod.mk.injEq] at e q2 q3
      obtain ⟨rfl, rfl, rfl⟩ := e
      subst q3
      simp only [Bool.not_true, Bool.false_eq_true, if_false]
      obtain ⟨s2, e2, hs2, -⟩ := clear_ok hs
      obtain ⟨s3, e3, hs3, hc3, -⟩ := clear_ok h2
      rw [e2, bind_ok, e3, bind_ok]
      have ht' := ht.set q1 q2.1 q2.2.1 q2.2.2.1 (q2.2.2.2.imp fun _ h => h.1)
      exact (ih hzs ht' (hr.step q1 q2) hs2 hs3 hE).mono fun q hq => ⟨hq.1, hq.2.step q1 q2⟩
  | @unknownKey k v rest hk hk' hu =>
    intro zs opts sArg sOpt hz ht hr h1 h2 hE
    cases hz with
    | @cons z _ zs _ hz hzs =>
    rw [parseLoop]
    refine (append_arg h1 hz (Or.inl (by simp))).bind fun s hs => ?_
    refine (popGetFirst_okOr hs cstr_eqZ (by simp) (sr := some sOpt) (fun x hx => ⟨[], by cases hx; exact h2⟩) (isFirst_key hk')
      (List.length_pos_iff.2 hk)).bind ?_ (by simp [capOf]; omega)
    rintro ⟨so, s'⟩ ⟨x, hx, hx1, hx2, hxc, -⟩
    simp only [capOf] at hx hx2 hxc
    subst hx
    simp only [List.take_left] at hx1
    simp only []
    rw [tryOpts_key (by rw [hx1.len]; have := List.length_pos_iff.2 hk; omega), search_unknown ht hx1.cstr hu, bind_ok]
    exact OkOr.ok ⟨rfl, rfl, fun j o ho => ⟨o, ho, rfl, rfl, rfl, rfl⟩⟩
  | @unknown a rest hp hu =>
    intro zs opts sArg sOpt hz ht hr h1 h2 hE
    cases hz with
    | @cons z _ zs _ hz hzs =>
    rw [parseLoop]
    refine (append_arg h1 hz (by
      rcases hE with hE | hE
      · exact Or.inr hE
      · left; rintro rfl; exact hE rfl)).bind fun s hs => ?_
    have hu : ns.Unknown a := hu.elim id fun h => by
      rcases hE with hE | hE
      · rw [hE] at h; cases h.1
      · exact absurd (by rw [h.2]) hE
    rw [popGetFirst_plain hs hp, bind_ok]
    simp only []
    rw [tryOpts_plain (by rw [h2.len]; rfl), search_unknown ht hs.cstr hu, bind_ok]
    exact OkOr.ok ⟨rfl, rfl, fun j o ho => ⟨o, ho, rfl, rfl, rfl, rfl⟩⟩

theorem strnlen_ok {z : Mem} {t : Text} (h : scanZ z = .ok t) : ∀ n, strnlen z n = .ok (min t.length n) := by
  obtain ⟨⟨rest, rfl⟩, hn⟩ := scanZ_eq_ok.1 h
  clear h
  induction t with
  | nil => intro n; cases n <;> simp [strnlen]
  | cons c t ih =>
    intro n
    cases n with
    | zero => simp [strnlen]
    | succ n =>
      simp only [List.mem_cons, not_or] at hn
      have hc : c ≠ 0 := fun e => hn.1 e.symm
      simp only [List.map_cons, List.cons_append, strnlen, hc, if_false, ih hn.2 n, bind_ok, List.length_cons]
      congr 1
      omega

theorem validate_ok {opts : List Opt} {ns : Names} (ht : IsTable opts ns) : validate opts = .ok true := by
  induction ht with
  | nil => rfl
  | @cons o p os ns h _ ih =>
    obtain ⟨l, s, v, h1, h2, h3, h4, h5, h6, h7⟩ := h
    rw [validate]
    simp only [h1, h3, h6, strnlen_ok h4.text, bind_ok, h7, if_false, ih]
    rw [if_neg (by omega)]

/-- The only argument asks for help: `-h`, `--help`, or anything beginning with a question mark. -/
def AsksHelp (args : List Text) : Prop :=
  ∃ a, args = [a] ∧ (a.head? = some 63 ∨ a = [45, 104] ∨ a = [45, 45, 104, 101, 108, 112])

theorem helpWanted_eq {zs : List Mem} {args : List Text} (hz : List.Forall₂ CStr zs args) :
    ∃ b, helpWanted zs = .ok b ∧ (b = true ↔ AsksHelp args) := by
  cases hz with
  | nil => exact ⟨false, rfl, by simp [AsksHelp]⟩
  | @cons z a zs args hz hzs =>
    cases hzs with
    | nil =>
      simp only [helpWanted, getc_head hz, bind_ok, C33_equals_z hz cstr_hZ, C33_equals_z hz cstr_helpZ]
      have hh := headD_eq hz.nz (show (63 : UInt8) ≠ 0 by decide)
      have e : AsksHelp [a] ↔ (a.head? = some 63 ∨ a = [45, 104] ∨ a = [45, 45, 104, 101, 108, 112]) := by
        simp [AsksHelp]
      rw [e, ← hh]
      by_cases c1 : a.headD 0 = 63
      · exact ⟨true, by rw [if_pos c1], by simp only [true_iff]; exact Or.inl c1⟩
      · rw [if_neg c1]
        by_cases c2 : a = [45, 104]
        · exact ⟨true, by simp [c2], by simp [c2]⟩
        · exact ⟨decide (a = [45, 45, 104, 101, 108, 112]), by simp only [c2, decide_false, Bool.false_eq_true, if_false], by
            simp only [c1, c2, false_or, decide_eq_true_eq]⟩
    | cons _ _ => exact ⟨false, rfl, by simp [AsksHelp]⟩

theorem parse_okOr {E : Env} {opts : List Opt} {ns : Names} {zs : List Mem} {args : List Text} {as : List (Nat × Text)} {r : Option Text}
    (ht : IsTable opts ns) (h0 : opts ≠ []) (hz : List.Forall₂ CStr zs args) (hh : ¬ AsksHelp args) (hrd : Reads E.debug ns args as r)
    (hr : AllReady opts as) (hE : E.debug = false ∨ r ≠ some []) :
    OkOr E ((args.map List.length).sum + 73) (parse E zs opts) fun q => q.1 = (if r = none then 0 else -1) ∧ After opts as q.2 := by
  obtain ⟨b, hb, hb'⟩ := helpWanted_eq hz
  have : b = false := by
    cases b
    · rfl
    · exact absurd (hb'.1 rfl) hh
  subst this
  unfold parse
  rw [decide_eq_true (show opts.length ≥ 1 from List.length_pos_iff.2 h0), enforce_true, bind_ok, validate_ok ht, bind_ok]
  simp only [Bool.not_true, Bool.false_eq_true, if_false, hb, bind_ok]
  refine (createCapacity_okOr (by decide) (by decide)).bind (fun s1 h1 => ?_) (by simp [defaultInit])
  refine (createCapacity_okOr (by decide) (by decide)).bind (fun s2 h2 => ?_) (by simp [defaultInit])
  exact (parseLoop_okOr hrd hz ht hr h1.1 h2.1 hE).le (by rw [h2.2.1]; simp [defaultInit]; omega)

/-! ### C55 -/

/-- **C55** (partial: the values given have to be assignable, see `Ready` and `AllReady`: no empty value for a string object in a debug build,
C strings are null or of the same length, C57; options of the container types cannot be assigned.)
If every argument is recognised, parsing succeeds and each option holds the last value given for it; all others keep their value. -/
theorem C55_parse_partial {E : Env} {opts : List Opt} {ns : Names} {zs : List Mem} {args : List Text} {as : List (Nat × Text)}
    (ht : IsTable opts ns) (h0 : opts ≠ []) (hz : List.Forall₂ CStr zs args) (hh : ¬ AsksHelp args) (hrd : Reads E.debug ns args as none)
    (hr : AllReady opts as) :
    OkOr E ((args.map List.length).sum + 73) (parse E zs opts) fun q => q.1 = 0 ∧ After opts as q.2 := by
  have := parse_okOr (E := E) ht h0 hz hh hrd hr (Or.inr (by simp))
  simpa using this

/-- The characters of a string. -/
def chars' (s : String) : Text := s.toUTF8.data.toList

/-- "-n" and "--num" for an integer, "-s" and "--str" for a string object that is still null. -/
def exOpts : List Opt :=
  [⟨some (zstr (chars' "--num")), some (zstr (chars' "-n")), some (.int 7), .int ⟨true, 32⟩⟩,
   ⟨some (zstr (chars' "--str")), some (zstr (chars' "-s")), some (.str none), .str⟩,
   ⟨some (zstr (chars' "--cs")), some (zstr (chars' "-c")), some (.cstr none), .cstr⟩,
   ⟨some (zstr (chars' "--flag")), some (zstr (chars' "-f")), some (.bool false), .bool⟩]

/-- The texts as arguments. -/
def argv (l : List String) : List Mem := l.map fun s => zstr s.toUTF8.data.toList

/-- Example: all three forms, the last value counts. -/
example : (parse exE (argv ["--num=5", "-f", "-c", "xy", "-n", "12"]) exOpts).mapOk (fun q => (q.1, q.2.map (·.value))) =
    .ok (0, [some (.int 12), some (.str none), some (.cstr (some (zstr [120, 121]))), some (.bool true)]) := by decide +kernel

/-- Example: the specification of the same arguments. -/
example : Reads true [([1, 2], [3])] [[1, 2, 61, 9], [3], [7], [3]] [(0, [9]), (0, [7]), (0, [49])] none :=
  .keyVal (k := [1, 2]) (v := [9]) (by simp) (by simp) ⟨⟨_, rfl, by simp⟩, by simp⟩
    (.value (Or.inr (by simp)) ⟨⟨_, rfl, by simp⟩, by simp⟩ (by simp) (by simp)
      (.flag (Or.inr (by simp)) ⟨⟨_, rfl, by simp⟩, by simp⟩ (by simp) (by simp) .done))

/-- **C55, disagreement.** An empty value for a string object terminates a debug build. -/
theorem C55_empty_value_aborts : parse exE (argv ["--str="]) exOpts = .exit .dbgAssert := by decide +kernel

/-! ### C56 -/

/-- **C56** (partial: as C55, and an empty argument terminates a debug build.)  At the first argument that is not recognised parsing stops with
the error status; the options assigned before it keep the new values, the arguments behind it have no effect. -/
theorem C56_unrecognised_partial {E : Env} {opts : List Opt} {ns : Names} {zs : List Mem} {args : List Text} {as : List (Nat × Text)} {a : Text}
    (ht : IsTable opts ns) (h0 : opts ≠ []) (hz : List.Forall₂ CStr zs args) (hh : ¬ AsksHelp args) (hrd : Reads E.debug ns args as (some a))
    (hr : AllReady opts as) (hE : E.debug = false ∨ a ≠ []) :
    OkOr E ((args.map List.length).sum + 73) (parse E zs opts) fun q => q.1 = -1 ∧ After opts as q.2 := by
  have := parse_okOr (E := E) ht h0 hz hh hrd hr (hE.imp id fun h => by simpa using h)
  simpa using this

/-- **C56** Every argument list is covered by C55 and C56, by exactly one of the two. -/
theorem C56_exactly_one_reading (strict : Bool) (ns : Names) (args : List Text) :
    ∃ as r, Reads strict ns args as r ∧ ∀ bs s, Reads strict ns args bs s → bs = as ∧ s = r := by
  obtain ⟨as, r, h⟩ := reads_total strict ns _ args (Nat.le_refl _)
  exact ⟨as, r, h, fun bs s h' => reads_unique h' h⟩

/-- A defect of an option. -/
def Defective (o : Opt) : Prop :=
  o.long = none ∨ o.short = none ∨ o.value = none ∨ (∃ z t, o.short = some z ∧ CStr z t ∧ 3 < t.length) ∨ o.ty = .bad

theorem validate_false {opts : List Opt} (hs : ∀ o ∈ opts, ∀ z, o.short = some z → ∃ t, CStr z t) (hd : ∃ o ∈ opts, Defective o) :
    validate opts = .ok false := by
  induction opts with
  | nil => obtain ⟨o, ho, -⟩ := hd; cases ho
  | cons o os ih =>
    rw [validate]
    cases hl : o.long with
    | none => rfl
    | some l =>
    cases hsh : o.short with
    | none => rfl
    | some s =>
    cases hv : o.value with
    | none => rfl
    | some v =>
    obtain ⟨t, ht⟩ := hs o (by simp) s hsh
    simp only [strnlen_ok ht.text, bind_ok]
    by_cases h1 : 3 < t.length
    · rw [if_pos (by omega)]
    · rw [if_neg (by omega)]
      by_cases h2 : o.ty = .bad
      · rw [if_pos h2]
      · rw [if_neg h2]
        apply ih (fun o ho => hs o (by simp [ho]))
        obtain ⟨o', ho', hd⟩ := hd
        rcases List.mem_cons.1 ho' with rfl | ho'
        · exfalso
          rcases hd with e | e | e | ⟨z, t', e, hz, h3⟩ | e
          · rw [hl] at e; cases e
          · rw [hsh] at e; cases e
          · rw [hv] at e; cases e
          · rw [hsh] at e
            obtain rfl := Option.some.inj e
            have := ht.text.symm.trans hz.text
            injection this with this
            subst this
            exact h1 h3
          · exact h2 e
        · exact ⟨o', ho', hd⟩

/-- **C56** A defective table is reported as an error, whatever the arguments, and nothing is assigned. -/
theorem C56_defective_table {E : Env} {opts : List Opt} (hs : ∀ o ∈ opts, ∀ z, o.short = some z → ∃ t, CStr z t)
    (hd : ∃ o ∈ opts, Defective o) (zs : List Mem) : parse E zs opts = .ok (-1, opts) := by
  have h1 : opts.length ≥ 1 := by
    obtain ⟨o, ho, -⟩ := hd
    exact List.length_pos_of_mem ho
  unfold parse
  rw [decide_eq_true h1, enforce_true, bind_ok, validate_false hs hd, bind_ok]
  rfl

/-- Example: `--num=5` is assigned, `-x` stops parsing, `--num=6` has no effect. -/
example : (parse exE (argv ["--num=5", "-x", "--num=6"]) exOpts).mapOk (fun q => (q.1, q.2.map (·.value))) =
    .ok (-1, [some (.int 5), some (.str none), some (.cstr none), some (.bool false)]) := by decide +kernel

/-- Example: a short name that is too long. -/
example : (parse exE (argv ["--num=5"]) [⟨some (zstr [45, 45]), some (zstr [45, 97, 98, 99]), some (.int 0), .int ⟨true, 8⟩⟩]).mapOk (·.1) =
    .ok (-1) := by decide +kernel

/-- **C56, disagreement.** An empty argument terminates a debug build instead of being reported. -/
theorem C56_empty_argument_aborts : parse exE (argv ["", "-f"]) exOpts = .exit .dbgAssert := by decide +kernel

/-! ### C73 -/

/-- **C73** Help is reported exactly if it is the only thing asked for; then nothing is assigned. -/
theorem C73_help {E : Env} {opts : List Opt} {ns : Names} {zs : List Mem} {args : List Text} (ht : IsTable opts ns) (h0 : opts ≠ [])
    (hz : List.Forall₂ CStr zs args) : (AsksHelp args → parse E zs opts = .ok (1, opts)) ∧
    ∀ q, parse E zs opts = .ok q → q.1 = 1 → AsksHelp args ∧ q.2 = opts := by
  obtain ⟨b, hb, hb'⟩ := helpWanted_eq hz
  have key : AsksHelp args → parse E zs opts = .ok (1, opts) := by
    intro hh
    have : b = true := hb'.2 hh
    subst this
    unfold parse
    rw [decide_eq_true (show opts.length ≥ 1 from List.length_pos_iff.2 h0), enforce_true, bind_ok, validate_ok ht, bind_ok]
    simp only [Bool.not_true, Bool.false_eq_true, if_false, hb, bind_ok, if_true]
  refine ⟨key, fun q hq h1 => ?_⟩
  by_cases hh : AsksHelp args
  · refine ⟨hh, ?_⟩
    rw [key hh] at hq
    injection hq with hq
    rw [← hq]
  · exfalso
    have : b = false := by
      cases b
      · rfl
      · exact absurd (hb'.1 rfl) hh
    subst this
    unfold parse at hq
    rw [decide_eq_true (show opts.length ≥ 1 from List.length_pos_iff.2 h0), enforce_true, bind_ok, validate_ok ht, bind_ok] at hq
    simp only [Bool.not_true, Bool.false_eq_true, if_false, hb, bind_ok, bind_eq_ok] at hq
    obtain ⟨s1, -, s2, -, hq⟩ := hq
    have : ∀ (zs : List Mem) (b : Bool) (s1 s2 : Arr) (opts : List Opt) (q : Int × List Opt), parseLoop E b zs s1 s2 opts = .ok q → q.1 ≠ 1 := by
      intro zs
      induction zs with
      | nil => intro b s1 s2 opts q h; rw [parseLoop] at h; injection h with h; rw [← h]; simp
      | cons a zs ih =>
        intro b s1 s2 opts q h
        cases b with
        | true => rw [parseLoop] at h; exact ih _ _ _ _ _ h
        | false =>
          rw [parseLoop, bind_eq_ok] at h
          obtain ⟨sA, -, h⟩ := h
          rw [bind_eq_ok] at h
          obtain ⟨⟨so, sA⟩, -, h⟩ := h
          cases so with
          | none => cases h
          | some so =>
            simp only [bind_eq_ok] at h
            obtain ⟨⟨f, os, u⟩, -, h⟩ := h
            cases f with
            | false =>
              simp only [Bool.not_false, if_true] at h
              injection h with h
              rw [← h]; simp
            | true =>
              simp only [Bool.not_true, Bool.false_eq_true, if_false, bind_eq_ok] at h
              obtain ⟨_, -, _, -, h⟩ := h
              exact ih _ _ _ _ _ h
    exact this _ _ _ _ _ _ hq h1

/-- Example: asking for help, and `-h` among other arguments, which is not recognised. -/
example : (parse exE (argv ["--help"]) exOpts).mapOk (·.1) = .ok 1 ∧ (parse exE (argv ["?x"]) exOpts).mapOk (·.1) = .ok 1 ∧
    (parse exE (argv ["-h", "-f"]) exOpts).mapOk (·.1) = .ok (-1) := by decide +kernel

/-! ### C57 -/

/-- **C57** A C-string option that is still null gets a copy of the value in a block of exactly the right size. -/
theorem C57_first_value {E : Env} {z : Mem} {v : Text} (hz : CStr z v) : OkOr E (v.length + 1) (assignCstr E none z) fun m => m = zstr v :=
  assignCstr_new hz

/-- **C57** (partial: full claim `∀ u v, … scanZ m = ok v`.)  A C-string option that holds a text is replaced correctly if the new value has the
same length. -/
theorem C57_replace_partial {E : Env} {z zv : Mem} {v u : Text} (hz : CStr z v) (hu : scanZ zv = .ok u) (hl : u.length = v.length) :
    ∃ m, assignCstr E (some zv) z = .ok m ∧ scanZ m = .ok v ∧ m.length = zv.length :=
  assignCstr_same hz hu hl

/-- **C57, disagreement.** A shorter value keeps the end of the old one. -/
theorem C57_shorter_keeps_tail {E : Env} {z zv : Mem} {v u : Text} (hz : CStr z v) (hu : scanZ zv = .ok u) (hl : v.length < u.length) :
    ∃ m, assignCstr E (some zv) z = .ok m ∧ scanZ m = .ok (v ++ u.drop v.length) := by
  obtain ⟨⟨rest, rfl⟩, hn⟩ := scanZ_eq_ok.1 hu
  obtain ⟨⟨rest', rfl⟩, hnz⟩ := scanZ_eq_ok.1 hz.text
  simp only [assignCstr, strlen_ok hz.text, strlen_ok hu, bind_ok]
  rw [if_neg (by omega), memcpyIn_ok (by simp) (by simp; omega)]
  refine ⟨_, rfl, ?_⟩
  rw [scanZ_eq_ok]
  refine ⟨⟨rest, ?_⟩, ?_⟩
  · have e : (u.map some ++ some 0 :: rest).drop (0 + v.length) = (u.drop v.length).map some ++ some 0 :: rest := by
      rw [Nat.zero_add, List.drop_append_of_le_length (by simp; omega), List.map_drop]
    rw [e]
    simp
  · simp only [List.mem_append, not_or]
    exact ⟨hnz, nz_drop hn _⟩

/-- **C57, disagreement.** A longer value overruns the block, which is shrunk to the difference of the lengths before the copy. -/
theorem C57_longer_overruns {E : Env} {z zv : Mem} {v u : Text} (hz : CStr z v) (hu : scanZ zv = .ok u) (hl : u.length < v.length) (h0 : u ≠ [])
    (ha : E.allocOk (v.length - u.length) = true) : assignCstr E (some zv) z = .ub := by
  have hp := List.length_pos_iff.2 h0
  have hlim := hz.lim
  obtain ⟨⟨rest', rfl⟩, hnz⟩ := scanZ_eq_ok.1 hz.text
  simp only [assignCstr, strlen_ok hz.text, strlen_ok hu, bind_ok]
  rw [if_pos (by omega), wsub_eq (by omega) (by omega), vtRealloc_ok (by omega) ha, bind_ok]
  simp only [memcpyIn]
  rw [readN_ok (by simp), bind_ok, writeN, if_neg]
  simp only [List.length_append, List.length_take, List.length_replicate, List.length_drop, List.length_map, List.length_cons]
  omega

/-- **C57, disagreement.** Over an empty text any value is stored without a terminator. -/
theorem C57_after_empty_unterminated {E : Env} {z zv : Mem} {v : Text} (hz : CStr z v) (hu : scanZ zv = .ok []) (h0 : v ≠ [])
    (ha : E.allocOk v.length = true) : ∃ m, assignCstr E (some zv) z = .ok m ∧ m = v.map some ∧ scanZ m = .ub := by
  have hp := List.length_pos_iff.2 h0
  have hlim := hz.lim
  obtain ⟨⟨rest', rfl⟩, hnz⟩ := scanZ_eq_ok.1 hz.text
  simp only [assignCstr, strlen_ok hz.text, strlen_ok hu, bind_ok]
  rw [if_pos (by simpa using hp), wsub_eq (by simp) (by omega)]
  simp only [List.length_nil, Nat.sub_zero]
  rw [vtRealloc_ok (by omega) ha, bind_ok, memcpyIn_ok (by simp) (by simp; omega)]
  have e : List.take 0 (zv.take v.length ++ List.replicate (v.length - zv.length) none) ++
      (v.map some ++ some 0 :: rest').take v.length ++
      (zv.take v.length ++ List.replicate (v.length - zv.length) none).drop (0 + v.length) = v.map some := by
    rw [List.drop_eq_nil_of_le (by simp; omega), List.take_zero, List.nil_append, List.take_left' (by simp), List.append_nil]
  rw [e]
  refine ⟨_, rfl, rfl, ?_⟩
  clear hz hlim hp ha e hu h0
  induction v with
  | nil => rfl
  | cons c v ih =>
    simp only [List.mem_cons, not_or] at hnz
    have hc : c ≠ 0 := fun e => hnz.1 e.symm
    simp only [List.map_cons, scanZ, hc, if_false, ih hnz.2]
    rfl

/-- Example: all four cases. -/
example : assignCstr exE none (zstr [97, 98]) = .ok (zstr [97, 98]) ∧
    assignCstr exE (some (zstr [97, 98, 99, 100])) (zstr [120]) = .ok (zstr [120, 98, 99, 100]) ∧
    assignCstr exE (some (zstr [97])) (zstr [120, 121, 122]) = .ub ∧
    assignCstr exE (some (zstr [97])) (zstr [120]) = .ok (zstr [120]) := by decide +kernel

/-! ### C74 -/

/-- One line of the manual: the short and the long name, aligned right in columns of width `a` and `b`, and the description. -/
def IsHelpLine (a b : Nat) (s l d line : Text) : Prop :=
  ∃ n m, line = List.replicate n 32 ++ s ++ [32] ++ (List.replicate m 32 ++ l) ++ [32] ++ d ∧ n + s.length = a ∧ m + l.length = b

/-- Lines of text, each with its line end. -/
def unlines (ls : List Text) : Text := (ls.map (· ++ [10])).flatten

/-- The texts of an option. -/
def HasTexts (o : HelpOpt) (q : Text × Text × Text) : Prop := CStr o.short q.1 ∧ CStr o.long q.2.1 ∧ CStr o.desc q.2.2

theorem toI32_small {n : Nat} (h : n < 2 ^ 31) : toI32 n = n := by
  unfold toI32 Conv.castTo
  have e : ((n : Int) % 2 ^ 32) = n := by omega
  simp only [e]
  rw [if_neg (by simp; omega)]

theorem widths_ok : ∀ {opts : List HelpOpt} {qs : List (Text × Text × Text)}, List.Forall₂ HasTexts opts qs →
    (∀ q ∈ qs, q.1.length < 2 ^ 31 ∧ q.2.1.length < 2 ^ 31) → ∀ a b : Nat, ∃ a' b' : Nat, widths a b opts = .ok ((a' : Int), (b' : Int)) ∧ a ≤ a' ∧ b ≤ b' ∧
      (∀ q ∈ qs, q.1.length ≤ a' ∧ q.2.1.length ≤ b') ∧ (a' = a ∨ ∃ q ∈ qs, q.1.length = a') ∧ (b' = b ∨ ∃ q ∈ qs, q.2.1.length = b') := by
  intro opts qs h
  induction h with
  | nil => intro _ a b; exact ⟨a, b, rfl, Nat.le_refl _, Nat.le_refl _, by simp, Or.inl rfl, Or.inl rfl⟩
  | @cons o q opts qs h _ ih =>
    intro hl a b
    obtain ⟨h1, h2, h3⟩ := h
    have hq := hl q (by simp)
    rw [widths]
    simp only [strlen_ok h1.text, strlen_ok h2.text, bind_ok, toI32_small hq.1, toI32_small hq.2]
    have e1 : ∀ x y : Nat, Cmp.max (x : Int) (y : Int) = ((Nat.max x y : Nat) : Int) := by
      intro x y
      unfold Cmp.max
      split <;> simp <;> omega
    rw [e1, e1]
    obtain ⟨a', b', i1, i2, i3, i4, i5, i6⟩ := ih (fun q hq => hl q (by simp [hq])) (Nat.max q.1.length a) (Nat.max q.2.1.length b)
    have m1 : q.1.length ≤ Nat.max q.1.length a := Nat.le_max_left _ _
    have m2 : a ≤ Nat.max q.1.length a := Nat.le_max_right _ _
    have m3 : q.2.1.length ≤ Nat.max q.2.1.length b := Nat.le_max_left _ _
    have m4 : b ≤ Nat.max q.2.1.length b := Nat.le_max_right _ _
    refine ⟨a', b', i1, by omega, by omega, ?_, ?_, ?_⟩
    · intro r hr
      rcases List.mem_cons.1 hr with rfl | hr
      · omega
      · exact i4 r hr
    · rcases i5 with i5 | ⟨r, hr, i5⟩
      · rcases Nat.le_total q.1.length a with hc | hc
        · left; rw [i5]; exact Nat.max_eq_right hc
        · right; exact ⟨q, by simp, by rw [i5]; exact (Nat.max_eq_left hc).symm⟩
      · right; exact ⟨r, by simp [hr], i5⟩
    · rcases i6 with i5 | ⟨r, hr, i5⟩
      · rcases Nat.le_total q.2.1.length b with hc | hc
        · left; rw [i5]; exact Nat.max_eq_right hc
        · right; exact ⟨q, by simp, by rw [i5]; exact (Nat.max_eq_left hc).symm⟩
      · right; exact ⟨r, by simp [hr], i5⟩

theorem padded_eq {w : Nat} {t : Text} (h : t.length ≤ w) : ∃ n, padded w t = List.replicate n 32 ++ t ∧ n + t.length = w :=
  ⟨w - t.length, by rw [padded, if_neg (by omega)]; rfl, by omega⟩

theorem helpLines_ok {a b : Nat} {opts : List HelpOpt} {qs : List (Text × Text × Text)} (h : List.Forall₂ HasTexts opts qs)
    (hl : ∀ q ∈ qs, q.1.length ≤ a ∧ q.2.1.length ≤ b) :
    ∃ lines, helpLines a b opts = .ok (unlines lines) ∧ List.Forall₂ (fun line q => IsHelpLine a b q.1 q.2.1 q.2.2 line) lines qs := by
  induction h with
  | nil => exact ⟨[], rfl, .nil⟩
  | @cons o q opts qs h _ ih =>
    obtain ⟨h1, h2, h3⟩ := h
    obtain ⟨lines, e, hf⟩ := ih fun q hq => hl q (by simp [hq])
    obtain ⟨l1, l2⟩ := hl q (by simp)
    obtain ⟨n, e1, n1⟩ := padded_eq l1
    obtain ⟨m, e2, m1⟩ := padded_eq l2
    refine ⟨_, ?_, .cons ⟨n, m, rfl, n1, m1⟩ hf⟩
    rw [helpLines]
    simp only [h1.text, h2.text, h3.text, bind_ok, e, e1, e2]
    simp [unlines]

/-- **C74** The manual: the header, one line for each option in the order of the table and one for help, the footer.  The names are aligned right
in two columns wide enough for all names and no wider, so that all descriptions begin in the same column. -/
theorem C74_manual {opts : List HelpOpt} {qs : List (Text × Text × Text)} (h : List.Forall₂ HasTexts opts qs) (h0 : opts ≠ [])
    (hl : ∀ q ∈ qs, q.1.length < 2 ^ 31 ∧ q.2.1.length < 2 ^ 31) {header footer : Option Mem} {hd ft : List Text}
    (hh : Option.elim header (hd = []) fun z => ∃ t, CStr z t ∧ hd = [t]) (hf : Option.elim footer (ft = []) fun z => ∃ t, CStr z t ∧ ft = [t]) :
    ∃ (a b : Nat) (lines : List Text) (last : Text), printHelp header footer opts = .ok (unlines (hd ++ lines ++ [last] ++ ft)) ∧
      List.Forall₂ (fun line q => IsHelpLine a b q.1 q.2.1 q.2.2 line) lines qs ∧
      IsHelpLine a b "-h".toUTF8.data.toList "--help".toUTF8.data.toList "This help information.".toUTF8.data.toList last ∧
      (∀ w, (∀ q ∈ qs, q.1.length ≤ w) → a ≤ max 2 w) ∧ (∀ w, (∀ q ∈ qs, q.2.1.length ≤ w) → b ≤ max 6 w) := by
  obtain ⟨a, b, e, l1, l2, l3, l4, l5⟩ := widths_ok h hl 2 6
  obtain ⟨lines, e2, hlines⟩ := helpLines_ok h l3
  obtain ⟨n, en, hn⟩ := padded_eq (w := a) (t := [45, 104]) (by simpa using l1)
  obtain ⟨m, em, hm⟩ := padded_eq (w := b) (t := [45, 45, 104, 101, 108, 112]) (by simpa using l2)
  have optLine_eq : ∀ {o : Option Mem} {ls : List Text}, (Option.elim o (ls = []) fun z => ∃ t, CStr z t ∧ ls = [t]) →
      optLine o = .ok (unlines ls) := by
    intro o ls ho
    cases o with
    | none => simp only [Option.elim] at ho; subst ho; rfl
    | some z =>
      simp only [Option.elim] at ho
      obtain ⟨t, ht, rfl⟩ := ho
      simp [optLine, ht.text, unlines]
  have s1 : "-h".toUTF8.data.toList = [45, 104] := by decide +kernel
  have s2 : "--help".toUTF8.data.toList = [45, 45, 104, 101, 108, 112] := by decide +kernel
  have s3 : "This help information.".toUTF8.data.toList = helpDesc := by decide +kernel
  rw [s1, s2, s3]
  refine ⟨a, b, lines, List.replicate n 32 ++ [45, 104] ++ [32] ++ (List.replicate m 32 ++ [45, 45, 104, 101, 108, 112]) ++ [32] ++ helpDesc, ?_, hlines, ?_, ?_, ?_⟩
  · unfold printHelp
    have e' : widths 2 6 opts = .ok ((a : Int), (b : Int)) := e
    rw [decide_eq_true (show opts.length ≥ 1 from List.length_pos_iff.2 h0), enforce_true, bind_ok, e', bind_ok]
    simp only [optLine_eq hh, optLine_eq hf, bind_ok, e2, en, em]
    congr 1
    simp [unlines, List.map_append, List.flatten_append]
  · exact ⟨n, m, rfl, hn, hm⟩
  · intro w hw
    rcases l4 with l4 | ⟨q, hq, l4⟩
    · omega
    · have := hw q hq; omega
  · intro w hw
    rcases l5 with l4 | ⟨q, hq, l4⟩
    · omega
    · have := hw q hq; omega

/-- Example: two options with a header. -/
example : printHelp (some (zstr [72, 105])) none [⟨zstr (chars' "--verbose"), zstr (chars' "-v"), zstr (chars' "talk")⟩,
    ⟨zstr (chars' "--n"), zstr (chars' "-nn"), zstr (chars' "count")⟩] =
  .ok (chars' "Hi\n -v --verbose talk\n-nn       --n count\n -h    --help This help information.\n") := by decide +kernel

end Vita
