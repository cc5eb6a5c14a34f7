import Verif.Model.Threads
import Verif.Props.OwnerProg
/-!
# C140: threads that have their own containers do not notice each other
-/

namespace Vita
open Out Spec Mal Own

seal wadd wsub wmul

variable {E : Env} {A : Allocator}

/-- The containers `m` of the program hold `ci`. -/
def View (c : Contents) (m : List Nat) (ci : Contents) : Prop := List.Forall₂ (fun g x => c[g]? = some x) m ci

theorem View.get {c ci : Contents} {m : List Nat} (h : View c m ci) (i : Nat) :
    (m[i]? = none ∧ ci[i]? = none) ∨ ∃ g x, m[i]? = some g ∧ ci[i]? = some x ∧ c[g]? = some x := by
  induction h generalizing i with
  | nil => left; simp
  | cons h1 h2 ih =>
    cases i with
    | zero => right; exact ⟨_, _, rfl, rfl, h1⟩
    | succ i => simpa using ih i

theorem View.live {c ci : Contents} {m : List Nat} (h : View c m ci) {i g : Nat} (hg : m[i]? = some g) : ci.live i = c.live g := by
  rcases h.get i with ⟨h1, -⟩ | ⟨g', x, h1, h2, h3⟩
  · rw [h1] at hg; cases hg
  · rw [h1] at hg
    cases hg
    rw [Contents.live, Contents.live, h2, h3]

theorem View.mono {c c' ci : Contents} {m : List Nat} (h : View c m ci) (hs : ∀ g ∈ m, ∀ x, c[g]? = some x → c'[g]? = some x) : View c' m ci := by
  induction h with
  | nil => exact .nil
  | cons h1 h2 ih => exact .cons (hs _ (by simp) _ h1) (ih fun g hg => hs g (by simp [hg]))

theorem View.lt {c ci : Contents} {m : List Nat} (h : View c m ci) : ∀ g ∈ m, g < c.length := by
  induction h with
  | nil => intro g hg; cases hg
  | cons h1 h2 ih =>
    intro g hg
    rcases List.mem_cons.1 hg with rfl | hg
    · exact (List.getElem?_eq_some_iff.1 h1).1
    · exact ih g hg

theorem View.snoc {c ci : Contents} {m : List Nat} (h : View c m ci) (x : Option (Tag × Arr)) : View (c ++ [x]) (m ++ [c.length]) (ci ++ [x]) := by
  refine List.rel_append (h.mono fun g hg x' hx => ?_) (.cons (by simp) .nil)
  rw [List.getElem?_append_left (h.lt g hg)]; exact hx

theorem View.set {c ci : Contents} {m : List Nat} (h : View c m ci) (hn : m.Nodup) {i g : Nat} (hg : m[i]? = some g) (x : Option (Tag × Arr)) :
    View (c.set g x) m (ci.set i x) := by
  induction h generalizing i with
  | nil => cases hg
  | @cons g1 x1 m ci h1 h2 ih =>
    have hn' := List.nodup_cons.1 hn
    cases i with
    | zero =>
      simp only [List.getElem?_cons_zero, Option.some.injEq] at hg
      subst hg
      refine .cons (List.getElem?_set_self (List.getElem?_eq_some_iff.1 h1).1) (View.mono (c := c) h2 fun g' hg' x' hx' => ?_)
      rw [List.getElem?_set_ne]
      · exact hx'
      · rintro rfl
        exact hn'.1 hg'
    | succ i =>
      simp only [List.getElem?_cons_succ] at hg
      refine .cons ?_ (ih hn'.2 hg)
      rw [List.getElem?_set_ne]
      · exact h1
      · rintro rfl
        exact hn'.1 (List.mem_of_getElem? hg)

/-- The number of turns the code takes from the contents `c`. -/
def Own.Prog.turns (E : Env) : Prog α → Contents → Nat
  | .out _, _ => 0
  | .cmd f k, c =>
    match plainStep E c f with
    | .ok c' => k.turns E c' + 1
    | _ => 0
  | .look i k, c =>
    match c.live i with
    | .ok o => (k (o.1.kind, o.2)).turns E c + 1
    | _ => 0
  | .next k, c => (k c.length).turns E c + 1

/-- What a turn of a thread does, seen by the thread (`ci`) and by the others. -/
theorem turn_view {t : Thread α} {c ci : Contents} (h : View c t.mine ci) (hn : t.mine.Nodup) :
    match t.turn.plain E c with
    | .ok (c', t') => ∃ ci', View c' t'.mine ci' ∧ t'.code.plain E ci' = t.code.plain E ci ∧
        t'.code.turns E ci' = t.code.turns E ci - 1 ∧ (∀ g x, g ∉ t.mine → c[g]? = some x → c'[g]? = some x) ∧
        (t'.mine = t.mine ∨ t'.mine = t.mine ++ [c.length])
    | .exit w => t.code.plain E ci = .exit w
    | .ub => t.code.plain E ci = .ub
    | .fuel => t.code.plain E ci = .fuel := by
  obtain ⟨p, m⟩ := t
  dsimp only at h hn ⊢
  cases p with
  | out o =>
    cases o with
    | ok a => exact ⟨ci, h, rfl, rfl, fun _ _ _ h => h, Or.inl rfl⟩
    | exit w => rfl
    | ub => rfl
    | fuel => rfl
  | look i k =>
    rcases h.get i with ⟨h1, h2⟩ | ⟨g, x, h1, h2, h3⟩
    · simp only [Thread.turn, h1, Prog.plain, Contents.live, h2]
      rfl
    · simp only [Thread.turn, h1, Prog.plain, h.live h1]
      cases hl : c.live g with
      | ok o => exact ⟨ci, h, by simp only [bind_ok], by simp only [Prog.turns, h.live h1, hl, Nat.add_sub_cancel], fun _ _ _ h => h, Or.inl rfl⟩
      | exit w => rfl
      | ub => rfl
      | fuel => rfl
  | next k =>
    refine ⟨ci, h, ?_, ?_, fun _ _ _ h => h, Or.inl rfl⟩
    · show (k m.length).plain E ci = (k ci.length).plain E ci
      rw [h.length_eq]
    · show (k m.length).turns E ci = (k ci.length).turns E ci + 1 - 1
      rw [h.length_eq, Nat.add_sub_cancel]
  | cmd f k =>
    have key : ∀ f', f.onto m = some f' →
        match plainStep E c f' with
        | .ok c' => ∃ ci', plainStep E ci f = .ok ci' ∧ View c' (if f.creates then m ++ [c.length] else m) ci' ∧
            (∀ g x, g ∉ m → c[g]? = some x → c'[g]? = some x)
        | .exit w => plainStep E ci f = .exit w
        | .ub => plainStep E ci f = .ub
        | .fuel => plainStep E ci f = .fuel := by
      intro f' hf
      have hsn : ∀ x, ∀ g (y : Option (Tag × Arr)), g ∉ m → c[g]? = some y → (c ++ [x])[g]? = some y := fun x g y _ hy => by
        rw [List.getElem?_append_left (List.getElem?_eq_some_iff.1 hy).1]; exact hy
      have hst : ∀ {i g : Nat}, m[i]? = some g → ∀ x g' (y : Option (Tag × Arr)), g' ∉ m → c[g']? = some y → (c.set g x)[g']? = some y := by
        intro i g hg x g' y hn' hy
        rw [List.getElem?_set_ne]
        · exact hy
        · rintro rfl
          exact hn' (List.mem_of_getElem? hg)
      cases f with
      | make tr x =>
        obtain rfl := Option.some.inj hf
        simp only [plainStep, Cmd.creates, if_true]
        cases x.run E with
        | ok a => exact ⟨_, rfl, h.snoc _, hsn _⟩
        | exit w => rfl
        | ub => rfl
        | fuel => rfl
      | makeLike i x =>
        obtain ⟨g, hg, rfl⟩ := Option.map_eq_some_iff.1 hf
        simp only [plainStep, Cmd.creates, if_true, h.live hg]
        cases c.live g with
        | ok o =>
          simp only [bind_ok]
          cases x.run E with
          | ok a => exact ⟨_, rfl, h.snoc _, hsn _⟩
          | exit w => rfl
          | ub => rfl
          | fuel => rfl
        | exit w => rfl
        | ub => rfl
        | fuel => rfl
      | call i f =>
        obtain ⟨g, hg, rfl⟩ := Option.map_eq_some_iff.1 hf
        simp only [plainStep, Cmd.creates, Bool.false_eq_true, if_false, h.live hg]
        cases c.live g with
        | ok o =>
          simp only [bind_ok]
          by_cases hk : f.kind ≠ o.1.kind
          · rw [if_pos hk, if_pos hk]
          · rw [if_neg hk, if_neg hk]
            cases f.run E o.2 with
            | ok a => exact ⟨_, rfl, h.set hn hg _, hst hg _⟩
            | exit w => rfl
            | ub => rfl
            | fuel => rfl
        | exit w => rfl
        | ub => rfl
        | fuel => rfl
      | dup i tr =>
        obtain ⟨g, hg, rfl⟩ := Option.map_eq_some_iff.1 hf
        simp only [plainStep, Cmd.creates, if_true, h.live hg]
        cases c.live g with
        | ok o =>
          simp only [bind_ok]
          cases plainDup E o.1.kind o.2 with
          | ok a => exact ⟨_, rfl, h.snoc _, hsn _⟩
          | exit w => rfl
          | ub => rfl
          | fuel => rfl
        | exit w => rfl
        | ub => rfl
        | fuel => rfl
      | destroy i =>
        obtain ⟨g, hg, rfl⟩ := Option.map_eq_some_iff.1 hf
        simp only [plainStep, Cmd.creates, Bool.false_eq_true, if_false, h.live hg]
        cases c.live g with
        | ok o => exact ⟨_, rfl, h.set hn hg _, hst hg _⟩
        | exit w => rfl
        | ub => rfl
        | fuel => rfl
    cases hf : f.onto m with
    | none =>
      have hub : plainStep E ci f = .ub := by
        have hl : ∀ i, m[i]? = none → ci.live i = .ub := by
          intro i hi
          rcases h.get i with ⟨-, h2⟩ | ⟨g, x, h1, -⟩
          · simp only [Contents.live, h2]
          · rw [hi] at h1; cases h1
        cases f <;> simp only [Cmd.onto, Option.map_eq_none_iff, reduceCtorEq] at hf <;> simp only [plainStep, hl _ hf, bind_ub]
      simp only [Thread.turn, hf, Prog.plain, hub, bind_ub]
    | some f' =>
      have := key f' hf
      simp only [Thread.turn, hf, Prog.plain]
      cases hp : plainStep E c f' with
      | ok c' =>
        rw [hp] at this
        obtain ⟨ci', e, hv, hfr⟩ := this
        refine ⟨ci', hv, ?_, ?_, hfr, ?_⟩
        · show k.plain E ci' = _
          rw [e, bind_ok]
        · simp only [Prog.turns, e, Nat.add_sub_cancel]
        · cases f.creates
          · exact Or.inl rfl
          · exact Or.inr rfl
      | exit w => rw [hp] at this; rw [this]; rfl
      | ub => rw [hp] at this; rw [this]; rfl
      | fuel => rw [hp] at this; rw [this]; rfl

/-- The threads `ts` have come from the pieces of code `ps`, thread `i` with at least `n i` turns: each of them holds what it would hold alone, and has left to
do what it would have left alone. -/
structure Apart (E : Env) (ps : List (Prog α)) (n : Nat → Nat) (c : Contents) (ts : List (Thread α)) : Prop where
  count : ts.length = ps.length
  own : ∀ (i : Nat) p t, ps[i]? = some p → ts[i]? = some t → ∃ ci, View c t.mine ci ∧ t.code.plain E ci = p.plain E [] ∧
    t.code.turns E ci = p.turns E [] - n i
  nodup : ∀ t ∈ ts, t.mine.Nodup
  disjoint : ∀ (i j : Nat) t t' g, i ≠ j → ts[i]? = some t → ts[j]? = some t' → g ∈ t.mine → g ∉ t'.mine

theorem apart_start (ps : List (Prog α)) : Apart E ps (fun _ => 0) [] (ps.map fun p => ⟨p, []⟩) := by
  have hm : ∀ {i : Nat} {t : Thread α}, (ps.map fun p => (⟨p, []⟩ : Thread α))[i]? = some t → ∃ p, ps[i]? = some p ∧ t = ⟨p, []⟩ := by
    intro i t h
    rw [List.getElem?_map, Option.map_eq_some_iff] at h
    obtain ⟨p, h1, h2⟩ := h
    exact ⟨p, h1, h2.symm⟩
  refine ⟨by simp, fun i p t hp ht => ?_, fun t ht => ?_, fun i j t t' g _ ht _ hg => ?_⟩
  · obtain ⟨p', h1, rfl⟩ := hm ht
    rw [hp] at h1
    obtain rfl := Option.some.inj h1
    exact ⟨[], .nil, rfl, rfl⟩
  · obtain ⟨p, -, rfl⟩ := List.mem_map.1 ht
    exact List.nodup_nil
  · obtain ⟨p, -, rfl⟩ := hm ht
    cases hg

theorem weave_apart {ps : List (Prog α)} : ∀ (order : List Nat) (n : Nat → Nat) (c : Contents) (ts : List (Thread α)), Apart E ps n c ts →
    match (weave order ts).plain E c with
    | .ok (c', ts') => Apart E ps (fun i => n i + order.count i) c' ts'
    | .exit w => ∃ p ∈ ps, p.plain E [] = .exit w
    | .ub => ∃ p ∈ ps, p.plain E [] = .ub
    | .fuel => ∃ p ∈ ps, p.plain E [] = .fuel
  | [], n, c, ts, h => by
    show Apart E ps (fun i => n i + List.count i []) c ts
    simpa using h
  | i :: order, n, c, ts, h => by
    cases hi : ts[i]? with
    | none =>
      have hlen : ts.length ≤ i := List.getElem?_eq_none_iff.1 hi
      have ih := weave_apart order n c ts h
      simp only [weave, hi]
      cases hw : (weave order ts).plain E c with
      | ok r =>
        rw [hw] at ih
        refine ⟨ih.count, fun j p t hp ht => ?_, ih.nodup, ih.disjoint⟩
        have hj : j < ps.length := (List.getElem?_eq_some_iff.1 hp).1
        have hne : i ≠ j := by have := h.count; omega
        rw [List.count_cons_of_ne hne]
        exact ih.own j p t hp ht
      | exit w => rw [hw] at ih; exact ih
      | ub => rw [hw] at ih; exact ih
      | fuel => rw [hw] at ih; exact ih
    | some t =>
      have hil : i < ps.length := by rw [← h.count]; exact (List.getElem?_eq_some_iff.1 hi).1
      obtain ⟨p, hp⟩ : ∃ p, ps[i]? = some p := ⟨_, List.getElem?_eq_getElem hil⟩
      obtain ⟨ci, hv, hpl, htn⟩ := h.own i p t hp hi
      have hmem : t ∈ ts := List.mem_of_getElem? hi
      have hpm : p ∈ ps := List.mem_of_getElem? hp
      have key := turn_view (E := E) hv (h.nodup t hmem)
      simp only [weave, hi]
      rw [plain_bind]
      cases hw : t.turn.plain E c with
      | ok r =>
        obtain ⟨c', t'⟩ := r
        rw [hw] at key
        obtain ⟨ci', k1, k2, k3, k4, k5⟩ := key
        rw [bind_ok]
        have hsub : ∀ g, g ∈ t'.mine → g ∈ t.mine ∨ g = c.length := by
          intro g hg
          rcases k5 with e | e
          · rw [e] at hg; exact Or.inl hg
          · rw [e] at hg
            rcases List.mem_append.1 hg with hg | hg
            · exact Or.inl hg
            · exact Or.inr (List.mem_singleton.1 hg)
        have hlt : ∀ (j : Nat) (t0 : Thread α), ts[j]? = some t0 → ∀ g ∈ t0.mine, g < c.length := by
          intro j t0 ht0
          have hjl : j < ps.length := by rw [← h.count]; exact (List.getElem?_eq_some_iff.1 ht0).1
          obtain ⟨cj, hvj, -⟩ := h.own j _ t0 (List.getElem?_eq_getElem hjl) ht0
          exact hvj.lt
        have hset : ∀ {j : Nat} {x : Thread α}, (ts.set i t')[j]? = some x → j = i ∧ x = t' ∨ j ≠ i ∧ ts[j]? = some x := by
          intro j x hx
          by_cases hji : j = i
          · subst hji
            rw [List.getElem?_set_self (by rw [h.count]; exact hil)] at hx
            exact Or.inl ⟨rfl, (Option.some.inj hx).symm⟩
          · rw [List.getElem?_set_ne (fun e => hji e.symm)] at hx
            exact Or.inr ⟨hji, hx⟩
        have hA : Apart E ps (fun j => n j + if i = j then 1 else 0) c' (ts.set i t') := by
          refine ⟨by simp [h.count], fun j q x hq hx => ?_, fun x hx => ?_, fun a b x y g hab hx hy hg hg' => ?_⟩
          · rcases hset hx with ⟨rfl, rfl⟩ | ⟨hji, hx⟩
            · rw [hp] at hq
              obtain rfl := Option.some.inj hq
              refine ⟨ci', k1, k2.trans hpl, ?_⟩
              rw [k3, htn, if_pos rfl]
              omega
            · obtain ⟨cj, h1, h2, h3⟩ := h.own j q x hq hx
              refine ⟨cj, h1.mono fun g hg y hy => k4 g y (fun hgt => ?_) hy, h2, ?_⟩
              · exact h.disjoint j i x t g hji hx hi hg hgt
              · rw [if_neg (fun e => hji e.symm)]
                exact h3
          · obtain ⟨j, hj⟩ := List.getElem?_of_mem hx
            rcases hset hj with ⟨rfl, rfl⟩ | ⟨-, hj⟩
            · rcases k5 with e | e
              · rw [e]; exact h.nodup t hmem
              · rw [e]
                refine List.Nodup.append (h.nodup t hmem) (by simp) ?_
                intro g hg hg'
                have := hlt _ t hi g hg
                rw [List.mem_singleton.1 hg'] at this
                omega
            · exact h.nodup x (List.mem_of_getElem? hj)
          · rcases hset hx with ⟨rfl, rfl⟩ | ⟨hai, hx1⟩ <;> rcases hset hy with ⟨rfl, rfl⟩ | ⟨hbi, hy1⟩
            · exact hab rfl
            · rcases hsub g hg with hg | rfl
              · exact h.disjoint _ b t y g hab hi hy1 hg hg'
              · have := hlt b y hy1 _ hg'
                omega
            · rcases hsub g hg' with hg' | rfl
              · exact h.disjoint a _ x t g hab hx1 hi hg hg'
              · have := hlt a x hx1 _ hg
                omega
            · exact h.disjoint a b x y g hab hx1 hy1 hg hg'
        have ih := weave_apart order _ c' _ hA
        cases hw2 : (weave order (ts.set i t')).plain E c' with
        | ok r =>
          rw [hw2] at ih
          have e : (fun j => (n j + if i = j then 1 else 0) + order.count j) = fun j => n j + (i :: order).count j := by
            funext j
            rw [List.count_cons]
            by_cases hij : i = j
            · simp [hij]; omega
            · simp [hij]
          rw [e] at ih
          exact ih
        | exit w => rw [hw2] at ih; exact ih
        | ub => rw [hw2] at ih; exact ih
        | fuel => rw [hw2] at ih; exact ih
      | exit w => rw [hw] at key; exact ⟨p, hpm, by rw [← hpl, key]⟩
      | ub => rw [hw] at key; exact ⟨p, hpm, by rw [← hpl, key]⟩
      | fuel => rw [hw] at key; exact ⟨p, hpm, by rw [← hpl, key]⟩

theorem turns_zero {p : Prog α} {c : Contents} (h0 : p.turns E c = 0) {r : Contents × α} (hr : p.plain E c = .ok r) : p = .out (.ok r.2) ∧ c = r.1 := by
  cases p with
  | out o =>
    cases o with
    | ok a => injection hr with hr; subst hr; exact ⟨rfl, rfl⟩
    | exit w => cases hr
    | ub => cases hr
    | fuel => cases hr
  | cmd f k =>
    obtain ⟨c', e, -⟩ := bind_eq_ok.1 hr
    simp only [Prog.turns, e] at h0
    cases h0
  | look i k =>
    obtain ⟨o, e, -⟩ := bind_eq_ok.1 hr
    simp only [Prog.turns, e] at h0
    cases h0
  | next k => cases h0

theorem le_sum_of_mem_nat : ∀ {l : List Nat} {x : Nat}, x ∈ l → x ≤ l.sum
  | y :: l, x, h => by
    rw [List.sum_cons]
    rcases List.mem_cons.1 h with rfl | h
    · omega
    · have := le_sum_of_mem_nat h
      omega

/-! ### The claims -/

/-- The threads that run the pieces of code `ps`, before the first turn. -/
def threads (ps : List (Prog α)) : List (Thread α) := ps.map fun p => ⟨p, []⟩

/-- **C140.** Pieces of code take turns in any order.  If the program goes through this order, then at every point each piece of code has its own containers,
which hold what they would hold had it run alone so far, and what it has left to do has the outcome that it would have alone.  If the program ends in the
middle, then because one of the pieces of code ends it, in the same way as alone. -/
theorem C140_threads (ps : List (Prog α)) (order : List Nat) :
    match (weave order (threads ps)).plain E [] with
    | .ok (c, ts) => ts.length = ps.length ∧
        (∀ (i : Nat) p t, ps[i]? = some p → ts[i]? = some t → ∃ ci, View c t.mine ci ∧ t.code.plain E ci = p.plain E []) ∧
        ∀ (i j : Nat) t t' g, i ≠ j → ts[i]? = some t → ts[j]? = some t' → g ∈ t.mine → g ∉ t'.mine
    | .exit w => ∃ p ∈ ps, p.plain E [] = .exit w
    | .ub => ∃ p ∈ ps, p.plain E [] = .ub
    | .fuel => ∃ p ∈ ps, p.plain E [] = .fuel := by
  have h := weave_apart order _ _ _ (apart_start (E := E) ps)
  rw [threads]
  cases hw : (weave order (ps.map fun p => (⟨p, []⟩ : Thread α))).plain E [] with
  | ok r =>
    rw [hw] at h
    refine ⟨h.count, fun i p t hp ht => ?_, h.disjoint⟩
    obtain ⟨ci, h1, h2, -⟩ := h.own i p t hp ht
    exact ⟨ci, h1, h2⟩
  | exit w => rw [hw] at h; exact h
  | ub => rw [hw] at h; exact h
  | fuel => rw [hw] at h; exact h

/-- **C140.** If each piece of code would come to an end alone, then there is a number of turns after which all are through, in whatever order the turns are
taken; each has the result and the containers that it would have alone. -/
theorem C140_results (ps : List (Prog α)) (hok : ∀ p ∈ ps, ∃ r, p.plain E [] = .ok r) : ∃ N, ∀ order : List Nat, (∀ i, i < ps.length → N ≤ order.count i) →
    ∃ c ts, (weave order (threads ps)).plain E [] = .ok (c, ts) ∧ ts.length = ps.length ∧
      ∀ (i : Nat) p, ps[i]? = some p → ∃ a ci m, p.plain E [] = .ok (ci, a) ∧ ts[i]? = some ⟨.out (.ok a), m⟩ ∧ View c m ci := by
  refine ⟨(ps.map fun p => p.turns E []).sum, fun order ho => ?_⟩
  have h := weave_apart order _ _ _ (apart_start (E := E) ps)
  rw [threads]
  cases hw : (weave order (ps.map fun p => (⟨p, []⟩ : Thread α))).plain E [] with
  | ok r =>
    rw [hw] at h
    refine ⟨r.1, r.2, rfl, h.count, fun i p hp => ?_⟩
    have hil : i < ps.length := (List.getElem?_eq_some_iff.1 hp).1
    have hpm : p ∈ ps := List.mem_of_getElem? hp
    have hit : i < r.2.length := by rw [h.count]; exact hil
    obtain ⟨ci, h1, h2, h3⟩ := h.own i p _ hp (List.getElem?_eq_getElem hit)
    have hle : p.turns E [] ≤ (ps.map fun p => p.turns E []).sum := le_sum_of_mem_nat (List.mem_map.2 ⟨p, hpm, rfl⟩)
    have := ho i hil
    obtain ⟨x, hx⟩ := hok p hpm
    rw [hx] at h2
    obtain ⟨e1, rfl⟩ := turns_zero (by rw [h3]; omega) h2
    refine ⟨x.2, x.1, r.2[i].mine, hx, ?_, h1⟩
    rw [List.getElem?_eq_getElem hit, ← e1]
  | exit w => rw [hw] at h; obtain ⟨p, hp, e⟩ := h; obtain ⟨x, hx⟩ := hok p hp; rw [e] at hx; cases hx
  | ub => rw [hw] at h; obtain ⟨p, hp, e⟩ := h; obtain ⟨x, hx⟩ := hok p hp; rw [e] at hx; cases hx
  | fuel => rw [hw] at h; obtain ⟨p, hp, e⟩ := h; obtain ⟨x, hx⟩ := hok p hp; rw [e] at hx; cases hx

/-- **C140**, in one memory, with blocks that move and addresses that are used again, all threads using the same tracking allocator: the outcome is the same.
Each thread that is through has the result it would have alone, and finds through its pointers the containers that it would have alone. -/
theorem C140_memory {H₀ H : Heap} {m : T} (hd : H₀.addrs.Nodup) (hc : Mal.create E A H₀ = .ok (m, H)) (σ₀ : Store) (ps : List (Prog α))
    (hub : ∀ p ∈ ps, p.plain E [] ≠ .ub) (order : List Nat) :
    ((weave order (threads ps)).inMem E A ⟨⟨H, m⟩, σ₀, []⟩ = .exit .alloc ∧ ∃ n, E.allocOk (2 * n * 16) = false) ∨
    (∃ p ∈ ps, ∃ w, p.plain E [] = .exit w ∧ (weave order (threads ps)).inMem E A ⟨⟨H, m⟩, σ₀, []⟩ = .exit w) ∨
    (∃ p ∈ ps, p.plain E [] = .fuel) ∨
    ∃ M ts, (weave order (threads ps)).inMem E A ⟨⟨H, m⟩, σ₀, []⟩ = .ok (M, ts) ∧ ts.length = ps.length ∧ (∀ q ∈ H₀.addrs, M.store q = σ₀ q) ∧
      ∀ (i : Nat) p t a, ps[i]? = some p → ts[i]? = some t → t.code = .out (.ok a) → ∃ ci, p.plain E [] = .ok (ci, a) ∧ t.mine.length = ci.length ∧
        ∀ (k g : Nat) tag x, t.mine[k]? = some g → ci[k]? = some (some (tag, x)) → ∃ hdr buf, M.load g = .ok ⟨tag.kind, hdr, buf, tag.tracked, x⟩ := by
  have h1 := C140_threads (E := E) ps order
  rcases C122_run hd hc σ₀ (weave order (threads ps)) with h | h
  · exact Or.inl h
  right
  cases hw : (weave order (threads ps)).plain E [] with
  | ok r =>
    obtain ⟨c, ts⟩ := r
    rw [hw] at h h1
    obtain ⟨M, e, hrep⟩ := h
    obtain ⟨g1, g2, -⟩ := h1
    refine Or.inr (Or.inr ⟨M, ts, e, g1, hrep.rest, fun i p t a hp ht hcode => ?_⟩)
    obtain ⟨ci, hv, hpl⟩ := g2 i p t hp ht
    rw [hcode] at hpl
    refine ⟨ci, hpl.symm, hv.length_eq, fun k g tag x hk hx => ?_⟩
    rcases hv.get k with ⟨h3, -⟩ | ⟨g', x', h3, h4, h5⟩
    · rw [h3] at hk; cases hk
    · rw [h3] at hk
      obtain rfl := Option.some.inj hk
      rw [h4] at hx
      obtain rfl := Option.some.inj hx
      exact hrep.live _ tag x h5
  | exit w => rw [hw] at h h1; obtain ⟨p, hp, e⟩ := h1; exact Or.inl ⟨p, hp, w, e, h⟩
  | ub => rw [hw] at h1; obtain ⟨p, hp, e⟩ := h1; exact absurd e (hub p hp)
  | fuel => rw [hw] at h1; exact Or.inr (Or.inl h1)

/-- Two pieces of code: each makes two strings and appends to one of them the text of the other, then reads it. -/
def exThread (x y : UInt8) : Prog (List UInt8) := do
  let s ← make true (.str [some x, some 0])
  let t ← make false (.str [some y, some y, some 0])
  let f ← fields t
  call s (.append f.mem)
  discard t
  let f ← fields s
  .out (Str.z f)

/-- Example: the two take turns in two different orders.  The results are the same, the numbers of the containers are not; in memory as well. -/
example : (exThread 97 98).plain malE [] >>= (fun r => .ok r.2) = .ok [97, 98, 98] := by decide +kernel
example : ((weave [0, 1, 1, 0, 0, 1, 1, 0, 0, 1, 1, 0, 1, 0, 0, 1, 0, 1] (threads [exThread 97 98, exThread 99 100])).plain malE [] >>= fun r =>
    .ok (r.1.map (·.isSome), r.2.map fun t => match t.code with | .out (.ok a) => (a, t.mine) | _ => ([], [])))
      = .ok ([true, true, false, false], [([97, 98, 98], [1, 3]), ([99, 100, 100], [0, 2])]) := by decide +kernel
example :
    (do
      let (m, H) ← Mal.create malE bumpA ⟨[(7, 3)], 0⟩
      let (M, ts) ← (weave (List.replicate 8 1 ++ List.replicate 8 0) (threads [exThread 97 98, exThread 99 100])).inMem malE bumpA ⟨⟨H, m⟩, fun _ => none, []⟩
      let s ← M.load 0
      let t ← M.load 2
      .ok (Str.z s.arr, Str.z t.arr, ts.map fun (t : Thread (List UInt8)) => match t.code with | .out (.ok a) => (a, t.mine) | _ => ([], [])))
      = .ok (.ok [99, 100, 100], .ok [97, 98, 98], [([97, 98, 98], [2, 3]), ([99, 100, 100], [0, 1])]) := by decide +kernel

end Vita
