import Verif.Model.OwnerArg
import Verif.Props.OwnerLib
import Verif.Props.ArgOpt
/-!
# Property C93: parsing arguments leaves no working strings behind and makes strings only for the options
-/

namespace Vita
open Out Mal Own

seal wadd wsub wmul

/-! ### Statement -/

/-- The number of the string the variable of an option points to. -/
def Own.AOpt.num (o : AOpt) : Option Nat :=
  match o.value with
  | some (.str s) => s
  | _ => none

/-- The strings the options of a table point to. -/
def strNums (os : List AOpt) : List Nat := os.filterMap AOpt.num

/-- The variable of an option, as the value it holds: a pointer to a live string stands for its contents.  String variables belong to string options. -/
def HoldsVal (c : Contents) (ty : ArgOpt.Ty) : Option AVal → Option ArgOpt.Val → Prop
  | none, v => v = none
  | some (.str none), v => ty = .str ∧ v = some (.str none)
  | some (.str (some i)), v => ty = .str ∧ ∃ t a, c[i]? = some (some (.str t, a)) ∧ v = some (.str (some a))
  | some (.other x), v => ty ≠ .str ∧ v = some x

/-- An option of the program, as an option with a value. -/
def Shows (c : Contents) (o : AOpt) (o' : ArgOpt.Opt) : Prop :=
  o.long = o'.long ∧ o.short = o'.short ∧ o.ty = o'.ty ∧ HoldsVal c o.ty o.value o'.value

/-- What parsing may do to the containers `c`, with the table `os` before and `os'` after; `T` are working strings. -/
structure Parsed (tr : Bool) (T : List Nat) (c : Contents) (os : List AOpt) (c' : Contents) (os' : List AOpt) : Prop where
  /-- no container disappears from the numbering -/
  len : c.length ≤ c'.length
  /-- containers no option points to are as before -/
  kept : ∀ i < c.length, i ∉ strNums os → c'[i]? = c[i]?
  /-- the strings of options stay live, with the same allocator -/
  tags : ∀ i < c.length, (c'[i]?).map (·.map (·.1)) = (c[i]?).map (·.map (·.1))
  /-- an option points to the same string as before, or had none and got a new one -/
  nums : List.Forall₂ (fun o o' => o'.num = o.num ∨ o.num = none ∧ ∃ i, c.length ≤ i ∧ i ∉ T ∧ o'.num = some i) os os'
  /-- no string is shared -/
  distinct : (strNums os').Nodup
  /-- a new live container is the string of an option, made with the allocator passed -/
  new : ∀ i, c.length ≤ i → i ∉ T → ∀ x, c'[i]? = some (some x) → i ∈ strNums os' ∧ x.1 = .str tr

/-! ### One option -/

/-- The effect of storing a value. -/
def Change (tr : Bool) (c : Contents) (o : AOpt) (c' : Contents) (o' : AOpt) : Prop :=
  (c' = c ∧ o'.num = o.num) ∨
  (∃ i t a b, o.num = some i ∧ o'.num = some i ∧ c[i]? = some (some (Tag.str t, a)) ∧ c' = c.set i (some (Tag.str t, b))) ∨
  ∃ b, o.num = none ∧ o'.num = some c.length ∧ c' = c ++ [some (Tag.str tr, b)]

theorem Shows.frame {c c' : Contents} {o : AOpt} {o' : ArgOpt.Opt} (h : Shows c o o') (hf : ∀ i x, o.num = some i → c[i]? = some (some x) → c'[i]? = some (some x)) :
    Shows c' o o' := by
  obtain ⟨h1, h2, h3, h4⟩ := h
  refine ⟨h1, h2, h3, ?_⟩
  obtain ⟨l, s, v, ty⟩ := o
  cases v with
  | none => exact h4
  | some v =>
    cases v with
    | other x => exact h4
    | str s =>
      cases s with
      | none => exact h4
      | some i =>
        obtain ⟨e, t, a, hc, hv⟩ := h4
        exact ⟨e, t, a, hf i _ rfl hc, hv⟩

theorem Change.frame {tr : Bool} {c c' : Contents} {o o' : AOpt} (h : Change tr c o c' o') {j : Nat} (hj : o.num ≠ some j) {x : Tag × Arr}
    (hx : c[j]? = some (some x)) : c'[j]? = some (some x) := by
  rcases h with ⟨rfl, -⟩ | ⟨i, t, a, b, h1, -, -, rfl⟩ | ⟨b, -, -, rfl⟩
  · exact hx
  · rw [List.getElem?_set_ne (by rintro rfl; exact hj h1)]; exact hx
  · rw [List.getElem?_append_left (getElem?_lt hx)]; exact hx

section
variable {E : Env} {tr : Bool}

theorem argAssign_ends {c : Contents} {o : AOpt} {o' : ArgOpt.Opt} (h : Shows c o o') (z : Mem) :
    EndsLike ((Own.argAssign E tr o z).plain E c) (ArgOpt.assign E o' z) fun c' r r' => Shows c' r r' ∧ Change tr c o c' r := by
  obtain ⟨l, s, v, ty⟩ := o
  obtain ⟨l', s', v', ty'⟩ := o'
  obtain ⟨h1, h2, h3, h4⟩ := h
  dsimp only at h1 h2 h3 h4
  subst h1 h2 h3
  unfold Own.argAssign ArgOpt.assign
  cases v with
  | none => cases (show v' = none from h4); exact Or.inr rfl
  | some v =>
    cases v with
    | other x =>
      obtain ⟨hty, rfl⟩ := h4
      dsimp only
      have fin : EndsLike ((do
          let v ← Prog.out (ArgOpt.assignValue E ty x z)
          Prog.out (.ok { (⟨l, s, some (.other x), ty⟩ : AOpt) with value := some (.other v) }) : Prog AOpt).plain E c)
          (do
            let v ← ArgOpt.assignValue E ty x z
            Out.ok { (⟨l, s, some x, ty⟩ : ArgOpt.Opt) with value := some v }) fun c' r r' => Shows c' r r' ∧ Change tr c ⟨l, s, some (.other x), ty⟩ c' r := by
        refine EndsLike.same fun v _ => EndsLike.ok ⟨⟨rfl, rfl, rfl, hty, rfl⟩, Or.inl ⟨rfl, rfl⟩⟩
      cases ty <;> first | exact absurd rfl hty | exact fin
    | str n =>
      have hty : ty = .str := by
        cases n with
        | none => exact h4.1
        | some i => exact h4.1
      subst hty
      cases n with
      | none =>
        obtain ⟨-, rfl⟩ := h4
        show EndsLike ((Own.make tr (.str z) >>= fun i => Prog.out (.ok (⟨l, s, some (.str (some i)), .str⟩ : AOpt))).plain E c)
          ((Str.create E z >>= fun s => Out.ok (ArgOpt.Val.str (some s))) >>= fun v => Out.ok (⟨l, s, some v, .str⟩ : ArgOpt.Opt)) _
        rw [bind_assoc]
        refine EndsLike.make (m := .str z) fun a _ => ?_
        rw [bind_ok]
        refine EndsLike.ok ⟨⟨rfl, rfl, rfl, rfl, tr, a, ?_, rfl⟩, Or.inr (Or.inr ⟨a, rfl, rfl, rfl⟩)⟩
        simp [Make.kind, Tag.str]
      | some i =>
        obtain ⟨-, t, a, hc, rfl⟩ := h4
        show EndsLike ((Own.call i .clear >>= fun _ => Own.call i (.append z) >>= fun _ => Prog.out (.ok (⟨l, s, some (.str (some i)), .str⟩ : AOpt))).plain E c)
          ((Str.clear a >>= fun s => Str.append E s z >>= fun s => Out.ok (ArgOpt.Val.str (some s))) >>= fun v => Out.ok (⟨l, s, some v, .str⟩ : ArgOpt.Opt)) _
        rw [bind_assoc]
        refine EndsLike.call (cl := .clear) hc rfl fun b _ => ?_
        rw [bind_assoc]
        have hlt := getElem?_lt hc
        refine EndsLike.call (cl := .append z) (k := .str t) (a := b) (by rw [List.getElem?_set_self hlt]) rfl fun d _ => ?_
        rw [bind_ok, List.set_set]
        exact EndsLike.ok ⟨⟨rfl, rfl, rfl, rfl, t, d, List.getElem?_set_self hlt, rfl⟩, Or.inr (Or.inl ⟨i, t, a, d, rfl, rfl, hc, rfl⟩)⟩

/-! ### The inner loop -/

/-- At most one option has changed. -/
def OneChange (tr : Bool) (c : Contents) (os : List AOpt) (c' : Contents) (os' : List AOpt) : Prop :=
  (c' = c ∧ os' = os) ∨ ∃ l o o' r, os = l ++ o :: r ∧ os' = l ++ o' :: r ∧ Change tr c o c' o'

theorem OneChange.cons {c c' : Contents} {os os' : List AOpt} (h : OneChange tr c os c' os') (o : AOpt) : OneChange tr c (o :: os) c' (o :: os') := by
  rcases h with ⟨rfl, rfl⟩ | ⟨l, x, x', r, rfl, rfl, h⟩
  · exact Or.inl ⟨rfl, rfl⟩
  · exact Or.inr ⟨o :: l, x, x', r, rfl, rfl, h⟩

theorem OneChange.head {c c' : Contents} {o o' : AOpt} (h : Change tr c o c' o') (os : List AOpt) : OneChange tr c (o :: os) c' (o' :: os) :=
  Or.inr ⟨[], o, o', os, rfl, rfl, h⟩

/-- A container no option points to is as before. -/
theorem OneChange.frame {c c' : Contents} {os os' : List AOpt} (h : OneChange tr c os c' os') {j : Nat} (hj : j ∉ strNums os) {x : Tag × Arr}
    (hx : c[j]? = some (some x)) : c'[j]? = some (some x) := by
  rcases h with ⟨rfl, rfl⟩ | ⟨l, o, o', r, rfl, rfl, h⟩
  · exact hx
  · refine h.frame (fun e => hj ?_) hx
    simp [strNums, e]

theorem shows_rest {c c' : Contents} {os : List AOpt} {os' : List ArgOpt.Opt} (h : List.Forall₂ (Shows c) os os')
    (hf : ∀ i ∈ strNums os, ∀ x, c[i]? = some (some x) → c'[i]? = some (some x)) : List.Forall₂ (Shows c') os os' := by
  induction h with
  | nil => exact .nil
  | @cons o o' os os' h hs ih =>
    refine .cons (h.frame fun i x e hx => hf i ?_ x hx) (ih fun i hi => hf i ?_)
    · simp [strNums, e]
    · simp only [strNums, List.mem_filterMap, List.mem_cons] at hi ⊢
      obtain ⟨a, h1, h2⟩ := hi
      exact ⟨a, Or.inr h1, h2⟩

theorem matches_names {c : Contents} {o : AOpt} {o' : ArgOpt.Opt} (h : Shows c o o') (z : Mem) : ArgOpt.matches_ z o.names = ArgOpt.matches_ z o' := by
  obtain ⟨h1, h2, -, -⟩ := h
  unfold ArgOpt.matches_ AOpt.names
  rw [h1, h2]

/-- What the inner loop leaves. -/
def Tried (tr : Bool) (c : Contents) (os : List AOpt) (c' : Contents) (r : Bool × List AOpt × Bool) (r' : Bool × List ArgOpt.Opt × Bool) : Prop :=
  r.1 = r'.1 ∧ r.2.2 = r'.2.2 ∧ List.Forall₂ (Shows c') r.2.1 r'.2.1 ∧ OneChange tr c os c' r.2.1

theorem strNums_cons (o : AOpt) (os : List AOpt) : strNums (o :: os) = o.num.toList ++ strNums os := by
  unfold strNums
  rw [List.filterMap_cons]
  cases o.num <;> rfl

theorem argTry_ends {c : Contents} {sOpt sArg : Nat} {k a : Arr} (hk : c[sOpt]? = some (some (.str tk, k))) (ha : c[sArg]? = some (some (.str ta, a)))
    (next : Option Mem) : ∀ {os : List AOpt} {os' : List ArgOpt.Opt}, List.Forall₂ (Shows c) os os' → (strNums os).Nodup →
    EndsLike ((Own.argTry E tr sOpt sArg next os).plain E c) (ArgOpt.tryOpts E k a next os') (Tried tr c os) := by
  intro os os' h
  induction h with
  | nil => intro _; exact EndsLike.ok ⟨rfl, rfl, .nil, Or.inl ⟨rfl, rfl⟩⟩
  | @cons o o' os os' h hs ih =>
    intro hn
    rw [strNums_cons] at hn
    have hn' := (List.nodup_append.1 hn).2.1
    have hdis : ∀ i ∈ strNums os, o.num ≠ some i := by
      intro i hi e
      exact (List.nodup_append.1 hn).2.2 i (by simp [e]) i hi rfl
    unfold Own.argTry ArgOpt.tryOpts
    refine EndsLike.fields hk (EndsLike.fields ha ?_)
    -- the option is the one
    have hit : ∀ (z : Mem) (u : Bool), EndsLike ((do
          let o ← Own.argAssign E tr o z
          Prog.out (.ok (true, o :: os, u)) : Prog (Bool × List AOpt × Bool)).plain E c)
        (do
          let o ← ArgOpt.assign E o' z
          Out.ok (true, o :: os', u)) (Tried tr c (o :: os)) := by
      intro z u
      refine EndsLike.bind (argAssign_ends h z) ?_
      rintro c' r r' - ⟨h1, h2⟩
      exact EndsLike.ok ⟨rfl, rfl, .cons h1 (shows_rest hs fun i hi x hx => h2.frame (hdis i hi) hx), OneChange.head h2 os⟩
    -- it is not
    have miss : EndsLike ((do
          let (f, os, c) ← Own.argTry E tr sOpt sArg next os
          Prog.out (.ok (f, o :: os, c)) : Prog (Bool × List AOpt × Bool)).plain E c)
        (do
          let (f, os, c) ← ArgOpt.tryOpts E k a next os'
          Out.ok (f, o' :: os, c)) (Tried tr c (o :: os)) := by
      refine EndsLike.bind (ih hn') ?_
      rintro c' ⟨f, l, u⟩ ⟨f', l', u'⟩ - ⟨h1, h2, h3, h4⟩
      dsimp only at h1 h2 h3 h4 ⊢
      subst h1 h2
      refine EndsLike.ok ⟨rfl, rfl, .cons (h.frame fun i x e hx => h4.frame (fun hi => hdis i hi e) hx) h3, h4.cons o⟩
    split
    · rw [matches_names h]
      refine EndsLike.same fun b _ => ?_
      cases b with
      | true => exact hit _ _
      | false => exact miss
    · rw [matches_names h]
      refine EndsLike.same fun b _ => ?_
      cases b with
      | false => exact miss
      | true =>
        simp only [if_true]
        cases next with
        | none => exact hit _ _
        | some n =>
          dsimp only
          refine EndsLike.same fun x _ => ?_
          split
          · exact hit _ _
          · exact hit _ _

/-! ### The outer loop -/

theorem mem_strNums {os : List AOpt} {i : Nat} : i ∈ strNums os ↔ ∃ o ∈ os, o.num = some i := by
  simp [strNums]

theorem Parsed.old {T : List Nat} {c c' : Contents} {os os' : List AOpt} (h : Parsed tr T c os c' os') {i : Nat} (hi : i ∈ strNums os') :
    i ∈ strNums os ∨ c.length ≤ i ∧ i ∉ T := by
  obtain ⟨o, ho, e⟩ := mem_strNums.1 hi
  have := h.nums
  revert ho
  generalize hR : (fun (o o' : AOpt) => o'.num = o.num ∨ o.num = none ∧ ∃ i, c.length ≤ i ∧ i ∉ T ∧ o'.num = some i) = R at this
  clear h
  induction this with
  | nil => intro ho; cases ho
  | @cons a b as bs h hs ih =>
    intro ho
    subst hR
    rcases List.mem_cons.1 ho with rfl | ho
    · rcases h with h | ⟨-, j, h1, h2, h3⟩
      · left; rw [strNums_cons, ← h, e]; simp
      · rw [e] at h3; injection h3 with h3; subst h3; exact Or.inr ⟨h1, h2⟩
    · rcases ih (mem_strNums.2 ⟨o, ho, e⟩) ho with h | h
      · left; rw [strNums_cons]; exact List.mem_append_right _ h
      · exact Or.inr h

/-- Working strings may change. -/
theorem Parsed.work {T : List Nat} {c c' : Contents} {os os' : List AOpt} (h : Parsed tr T c os c' os') {t : Nat} (ht : t ∈ T) (hc : c.length ≤ t)
    (x : Option (Tag × Arr)) : Parsed tr T c os (c'.set t x) os' where
  len := by rw [List.length_set]; exact h.len
  kept i hi hn := by rw [List.getElem?_set_ne (by omega)]; exact h.kept i hi hn
  tags i hi := by rw [List.getElem?_set_ne (by omega)]; exact h.tags i hi
  nums := h.nums
  distinct := h.distinct
  new i hi hT y hy := by
    rw [List.getElem?_set_ne (by rintro rfl; exact hT ht)] at hy
    exact h.new i hi hT y hy

theorem forall₂_replace {R : α → β → Prop} {x y : β} (hxy : ∀ a, R a x → R a y) : ∀ {l : List β} {r : List β} {as : List α},
    List.Forall₂ R as (l ++ x :: r) → List.Forall₂ R as (l ++ y :: r)
  | [], _, _, .cons h hs => .cons (hxy _ h) hs
  | _ :: _, _, _, .cons h hs => .cons h (forall₂_replace hxy hs)

theorem Parsed.step {T : List Nat} {c c' c1 : Contents} {os os' os1 : List AOpt} (h : Parsed tr T c os c' os') (h1 : OneChange tr c' os' c1 os1)
    (hT : ∀ t ∈ T, t < c'.length) (hb : ∀ i ∈ strNums os', i < c'.length) : Parsed tr T c os c1 os1 := by
  rcases h1 with ⟨rfl, rfl⟩ | ⟨l, o, o', r, rfl, rfl, hc⟩
  · exact h
  have hmem : ∀ {n : Nat}, o.num = some n → n ∈ strNums (l ++ o :: r) := fun e => by simp [strNums, e]
  have hsn : ∀ x : AOpt, strNums (l ++ x :: r) = strNums l ++ (x.num.toList ++ strNums r) := by
    intro x
    rw [← strNums_cons]
    simp [strNums]
  have inT : ∀ {n : Nat}, c'.length ≤ n → n ∉ T := fun hn ht => absurd (hT _ ht) (by omega)
  have hl := h.len
  have hd := h.distinct
  rw [hsn] at hd
  rcases hc with ⟨rfl, hn⟩ | ⟨i, t, a, b, hn, hn', hi, rfl⟩ | ⟨b, hn, hn', rfl⟩
  · refine ⟨h.len, h.kept, h.tags, forall₂_replace (fun a ha => ?_) h.nums, ?_, ?_⟩
    · rw [hn]; exact ha
    · rw [hsn, hn]; exact hd
    · intro i hi ht x hx
      rw [hsn, hn, ← hsn]
      exact h.new i hi ht x hx
  · have hlt := getElem?_lt hi
    have hin : c.length ≤ i ∨ i ∈ strNums os := by
      rcases h.old (hmem hn) with h | h
      · exact Or.inr h
      · exact Or.inl h.1
    refine ⟨by rw [List.length_set]; exact h.len, ?_, ?_, forall₂_replace (fun a ha => ?_) h.nums, ?_, ?_⟩
    · intro j hj hjn
      rw [List.getElem?_set_ne, h.kept j hj hjn]
      rintro rfl
      rcases hin with h | h
      · omega
      · exact hjn h
    · intro j hj
      rw [← h.tags j hj]
      by_cases e : i = j
      · subst e
        rw [List.getElem?_set_self hlt, hi]
        rfl
      · rw [List.getElem?_set_ne e]
    · rw [hn', ← hn]; exact ha
    · rw [hsn, hn', ← hn]; exact hd
    · intro j hj ht x hx
      rw [hsn, hn', ← hn, ← hsn]
      by_cases e : i = j
      · subst e
        rw [List.getElem?_set_self hlt] at hx
        injection hx with hx
        injection hx with hx
        subst hx
        exact ⟨hmem hn, (h.new i hj ht _ hi).2⟩
      · rw [List.getElem?_set_ne e] at hx
        exact h.new j hj ht x hx
  · have fresh : c'.length ∉ strNums (l ++ o :: r) := fun hm => absurd (hb _ hm) (by omega)
    rw [hsn, hn] at fresh
    rw [hn] at hd
    refine ⟨by simp; omega, ?_, ?_, forall₂_replace (fun a ha => ?_) h.nums, ?_, ?_⟩
    · intro j hj hjn
      rw [List.getElem?_append_left (by omega)]
      exact h.kept j hj hjn
    · intro j hj
      rw [List.getElem?_append_left (by omega)]
      exact h.tags j hj
    · rw [hn] at ha
      refine Or.inr ⟨?_, c'.length, h.len, inT (Nat.le_refl _), hn'⟩
      rcases ha with e | ⟨-, i, -, -, e⟩
      · exact e.symm
      · cases e
    · rw [hsn, hn']
      have e : (strNums l ++ ((some c'.length).toList ++ strNums r)).Perm (c'.length :: (strNums l ++ ((none : Option Nat).toList ++ strNums r))) := by
        simp only [Option.toList_some, Option.toList_none, List.nil_append]
        exact List.perm_middle
      exact e.nodup_iff.2 (List.nodup_cons.2 ⟨fresh, hd⟩)
    · intro j hj ht x hx
      rw [hsn, hn']
      by_cases e : j < c'.length
      · rw [List.getElem?_append_left e] at hx
        obtain ⟨g1, g2⟩ := h.new j hj ht x hx
        rw [hsn, hn] at g1
        refine ⟨?_, g2⟩
        simp only [Option.toList_none, Option.toList_some, List.mem_append, List.mem_singleton, List.not_mem_nil, false_or] at g1 ⊢
        rcases g1 with g | g
        · exact Or.inl g
        · exact Or.inr (Or.inr g)
      · have e' : j = c'.length := by
          have := getElem?_lt hx
          simp only [List.length_append, List.length_singleton] at this
          omega
        subst e'
        rw [List.getElem?_append_right (Nat.le_refl _)] at hx
        simp only [Nat.sub_self, List.getElem?_cons_zero, Option.some.injEq] at hx
        subst hx
        exact ⟨by simp, rfl⟩

theorem shows_live {c : Contents} {os : List AOpt} {os' : List ArgOpt.Opt} (h : List.Forall₂ (Shows c) os os') :
    ∀ i ∈ strNums os, i < c.length := by
  induction h with
  | nil => intro i hi; cases hi
  | @cons o o' os os' h hs ih =>
    intro i hi
    rw [strNums_cons] at hi
    rcases List.mem_append.1 hi with hi | hi
    · obtain ⟨l, s, v, ty⟩ := o
      obtain ⟨-, -, -, h⟩ := h
      cases v with
      | none => cases hi
      | some v =>
        cases v with
        | other x => cases hi
        | str n =>
          cases n with
          | none => cases hi
          | some n =>
            have : i = n := by simpa [AOpt.num] using hi
            subst this
            obtain ⟨-, t, a, hc, -⟩ := h
            exact getElem?_lt hc
    · exact ih i hi

/-- Between two arguments: the working strings `sArg` and `sOpt`, everything else as `Parsed` says. -/
structure Between (tr : Bool) (c0 : Contents) (os0 : List AOpt) (sArg sOpt : Nat) (c : Contents) (os : List AOpt) (os' : List ArgOpt.Opt) (a k : Arr) : Prop where
  parsed : Parsed tr [sArg, sOpt] c0 os0 c os
  shows : List.Forall₂ (Shows c) os os'
  arg : c[sArg]? = some (some (.str tr, a))
  opt : c[sOpt]? = some (some (.str tr, k))

theorem Between.notin {c0 c : Contents} {os0 os : List AOpt} {sArg sOpt : Nat} {os' : List ArgOpt.Opt} {a k : Arr} (h : Between tr c0 os0 sArg sOpt c os os' a k)
    (hb : ∀ i ∈ strNums os0, i < c0.length) {t : Nat} (ht : t ∈ [sArg, sOpt]) (hc : c0.length ≤ t) : t ∉ strNums os := by
  intro hm
  rcases h.parsed.old hm with h | h
  · have := hb t h; omega
  · exact h.2 ht

theorem Between.setArg {c0 c : Contents} {os0 os : List AOpt} {sArg sOpt : Nat} {os' : List ArgOpt.Opt} {a k : Arr} (h : Between tr c0 os0 sArg sOpt c os os' a k)
    (hb : ∀ i ∈ strNums os0, i < c0.length) (hne : sArg ≠ sOpt) (hc : c0.length ≤ sArg) (b : Arr) :
    Between tr c0 os0 sArg sOpt (c.set sArg (some (.str tr, b))) os os' b k where
  parsed := h.parsed.work (by simp) hc _
  shows := shows_rest h.shows fun i hi x hx => by
    rw [List.getElem?_set_ne (by rintro rfl; exact h.notin hb (by simp) hc hi)]; exact hx
  arg := List.getElem?_set_self (getElem?_lt h.arg)
  opt := by rw [List.getElem?_set_ne hne]; exact h.opt

theorem Between.setOpt {c0 c : Contents} {os0 os : List AOpt} {sArg sOpt : Nat} {os' : List ArgOpt.Opt} {a k : Arr} (h : Between tr c0 os0 sArg sOpt c os os' a k)
    (hb : ∀ i ∈ strNums os0, i < c0.length) (hne : sArg ≠ sOpt) (hc : c0.length ≤ sOpt) (b : Arr) :
    Between tr c0 os0 sArg sOpt (c.set sOpt (some (.str tr, b))) os os' a b where
  parsed := h.parsed.work (by simp) hc _
  shows := shows_rest h.shows fun i hi x hx => by
    rw [List.getElem?_set_ne (by rintro rfl; exact h.notin hb (by simp) hc hi)]; exact hx
  arg := by rw [List.getElem?_set_ne (Ne.symm hne)]; exact h.arg
  opt := List.getElem?_set_self (getElem?_lt h.opt)

theorem argLoop_ends {c0 : Contents} {os0 : List AOpt} {sArg sOpt : Nat} (hb : ∀ i ∈ strNums os0, i < c0.length) (hne : sArg ≠ sOpt)
    (hca : c0.length ≤ sArg) (hco : c0.length ≤ sOpt) : ∀ (args : List Mem) (skip : Bool) {c : Contents} {os : List AOpt} {os' : List ArgOpt.Opt} {a k : Arr},
    Between tr c0 os0 sArg sOpt c os os' a k →
    EndsLike ((Own.argLoop E tr skip args sArg sOpt os).plain E c) (ArgOpt.parseLoop E skip args a k os') fun c' r r' =>
      r.1 = r'.1 ∧ r.2.2 = sOpt ∧ ∃ a k, Between tr c0 os0 sArg sOpt c' r.2.1 r'.2 a k := by
  intro args
  induction args with
  | nil =>
    intro skip c os os' a k h
    unfold Own.argLoop ArgOpt.parseLoop
    exact EndsLike.ok ⟨rfl, rfl, a, k, h⟩
  | cons x rest ih =>
    intro skip c os os' a k h
    cases skip with
    | true =>
      unfold Own.argLoop ArgOpt.parseLoop
      exact ih false h
    | false =>
      unfold Own.argLoop ArgOpt.parseLoop
      refine EndsLike.call (cl := .append x) h.arg rfl fun b _ => ?_
      have h1 := h.setArg hb hne hca b
      refine EndsLike.bind (popGetFirst_ends (sr := some sOpt) (x := some k) (td := tr) (by simp only [Option.map_some]; rw [h1.opt]) h1.arg (by simpa using Ne.symm hne)) ?_
      rintro c2 r ⟨o, b2⟩ - hp
      have h2 : ∃ k2, o = some k2 ∧ r = some sOpt ∧ Between tr c0 os0 sArg sOpt c2 os os' b2 k2 := by
        rcases hp with ⟨e1, e2, e3⟩ | ⟨b', e1, e2, e3⟩
        · exact ⟨k, e1, e2, e3 ▸ h1.setArg hb hne hca b2⟩
        · exact ⟨b', e1, e2, e3 ▸ (h1.setOpt hb hne hco b').setArg hb hne hca b2⟩
      obtain ⟨k2, rfl, rfl, h2⟩ := h2
      dsimp only
      refine EndsLike.bind (argTry_ends (tr := tr) h2.opt h2.arg rest.head? h2.shows h2.parsed.distinct) ?_
      rintro c3 ⟨f, l, u⟩ ⟨f', l', u'⟩ - ⟨e1, e2, e3, e4⟩
      dsimp only at e1 e2 e3 e4 ⊢
      subst e1 e2
      have h3 : Between tr c0 os0 sArg sOpt c3 l l' b2 k2 := by
        refine ⟨h2.parsed.step e4 ?_ (shows_live h2.shows), e3, e4.frame (h2.notin hb (by simp) hca) h2.arg, e4.frame (h2.notin hb (by simp) hco) h2.opt⟩
        intro t ht
        rcases List.mem_cons.1 ht with rfl | ht
        · exact getElem?_lt h2.arg
        · cases List.mem_singleton.1 ht; exact getElem?_lt h2.opt
      cases f with
      | false => exact EndsLike.ok ⟨rfl, rfl, b2, k2, h3⟩
      | true =>
        show EndsLike ((Own.call sArg .clear >>= fun _ => Own.call sOpt .clear >>= fun _ => Own.argLoop E tr u rest sArg sOpt l).plain E c3)
          (Str.clear b2 >>= fun a => Str.clear k2 >>= fun k => ArgOpt.parseLoop E u rest a k l') _
        refine EndsLike.call (cl := .clear) h3.arg rfl fun b4 _ => ?_
        have h4 := h3.setArg hb hne hca b4
        refine EndsLike.call (cl := .clear) h4.opt rfl fun k5 _ => ?_
        exact ih u (h4.setOpt hb hne hco k5)

/-! ### The whole function -/

theorem validate_names {c : Contents} {os : List AOpt} {os' : List ArgOpt.Opt} (h : List.Forall₂ (Shows c) os os') :
    ArgOpt.validate (os.map AOpt.names) = ArgOpt.validate os' := by
  induction h with
  | nil => rfl
  | @cons o o' os os' h hs ih =>
    obtain ⟨l, s, v, ty⟩ := o
    obtain ⟨l', s', v', ty'⟩ := o'
    obtain ⟨h1, h2, h3, h4⟩ := h
    dsimp only at h1 h2 h3 h4
    subst h1 h2 h3
    rw [List.map_cons]
    unfold ArgOpt.validate
    rw [ih]
    have : (v = none ↔ v' = none) := by
      cases v with
      | none => simpa [HoldsVal] using h4
      | some v =>
        cases v with
        | other x => simp [h4.2]
        | str n =>
          cases n with
          | none => simp [h4.2]
          | some n => obtain ⟨-, t, a, -, rfl⟩ := h4; simp
    cases v with
    | none => cases this.1 rfl; rfl
    | some v =>
      cases v' with
      | none => cases this.2 rfl
      | some v' => cases l <;> cases s <;> rfl

theorem argParse_ends {c : Contents} {os : List AOpt} {os' : List ArgOpt.Opt} (h : List.Forall₂ (Shows c) os os') (hd : (strNums os).Nodup) (args : List Mem) :
    EndsLike ((Own.argParse E tr args os).plain E c) (ArgOpt.parse E args os') fun c' r r' =>
      r.1 = r'.1 ∧ List.Forall₂ (Shows c') r.2 r'.2 ∧ Parsed tr [] c os c' r.2 := by
  have same : ∀ {T}, Parsed tr T c os c os := by
    intro T
    refine ⟨Nat.le_refl _, fun _ _ _ => rfl, fun _ _ => rfl, ?_, hd, ?_⟩
    · clear h hd
      induction os with
      | nil => exact .nil
      | cons o os ih => exact .cons (Or.inl rfl) ih
    · intro i hi _ x hx
      exact absurd (getElem?_lt hx) (by omega)
  unfold Own.argParse ArgOpt.parse
  rw [h.length_eq, validate_names h]
  refine EndsLike.same fun _ _ => EndsLike.same fun v _ => ?_
  cases v with
  | false => exact EndsLike.ok ⟨rfl, h, same⟩
  | true =>
    simp only [Bool.not_true, Bool.false_eq_true, if_false]
    refine EndsLike.same fun hw _ => ?_
    cases hw with
    | true => exact EndsLike.ok ⟨rfl, h, same⟩
    | false =>
      simp only [Bool.false_eq_true, if_false]
      refine EndsLike.make (m := .strCapacity defaultInit) fun a _ => EndsLike.make (m := .strCapacity defaultInit) fun k _ => ?_
      have hl : (c ++ [some ((⟨Make.kind (.strCapacity defaultInit), tr⟩ : Tag), a)]).length = c.length + 1 := by simp
      rw [hl]
      have e0 : c ++ [some ((⟨Make.kind (.strCapacity defaultInit), tr⟩ : Tag), a)] ++ [some ((⟨Make.kind (.strCapacity defaultInit), tr⟩ : Tag), k)] =
        c ++ [some (Tag.str tr, a), some (Tag.str tr, k)] := by simp [Make.kind, Tag.str]
      rw [e0]
      have hb0 := shows_live h
      have start : Between tr c os c.length (c.length + 1) (c ++ [some (Tag.str tr, a), some (Tag.str tr, k)]) os os' a k := by
        refine ⟨⟨by simp, ?_, ?_, same (T := [c.length, c.length + 1]) |>.nums, hd, ?_⟩, shows_rest h ?_, by simp, by simp⟩
        · intro i hi _; rw [List.getElem?_append_left hi]
        · intro i hi; rw [List.getElem?_append_left hi]
        · intro i hi ht x hx
          have := getElem?_lt hx
          simp only [List.length_append, List.length_cons, List.length_nil, List.mem_cons, List.not_mem_nil, or_false, not_or] at this ht
          omega
        · intro i hi x hx
          rw [List.getElem?_append_left (getElem?_lt hx)]; exact hx
      rw [show ArgOpt.parseLoop E false args a k os' = ArgOpt.parseLoop E false args a k os' >>= fun r => .ok r by
        cases ArgOpt.parseLoop E false args a k os' <;> rfl]
      refine EndsLike.bind (argLoop_ends hb0 (by omega) (by omega) (by omega) args false start) ?_
      rintro c1 ⟨st, l, so⟩ ⟨st', l'⟩ - ⟨e1, e2, a1, k1, hbt⟩
      dsimp only at e1 e2 hbt ⊢
      subst e1 e2
      refine EndsLike.discard hbt.arg (EndsLike.discard (x := (.str tr, k1)) (by rw [List.getElem?_set_ne (by omega)]; exact hbt.opt) (EndsLike.ok ⟨rfl, ?_, ?_⟩))
      · refine shows_rest hbt.shows fun i hi x hx => ?_
        have n1 := hbt.notin hb0 (t := c.length) (by simp) (by omega)
        have n2 := hbt.notin hb0 (t := c.length + 1) (by simp) (by omega)
        rw [List.getElem?_set_ne (by rintro rfl; exact n2 hi), List.getElem?_set_ne (by rintro rfl; exact n1 hi)]
        exact hx
      · have hp := (hbt.parsed.work (t := c.length) (by simp) (by omega) none).work (t := c.length + 1) (by simp) (by omega) none
        refine ⟨hp.len, hp.kept, hp.tags, hp.nums.imp ?_, hp.distinct, ?_⟩
        · rintro o o' (e | ⟨e, i, hi, -, e'⟩)
          · exact Or.inl e
          · exact Or.inr ⟨e, i, hi, by simp, e'⟩
        · intro i hi _ x hx
          refine hp.new i hi ?_ x hx
          intro ht
          simp only [List.mem_cons, List.not_mem_nil, or_false] at ht
          rcases ht with rfl | rfl
          · rw [List.getElem?_set_ne (by omega), List.getElem?_set_self (getElem?_lt hbt.arg)] at hx; cases hx
          · rw [List.getElem?_set_self (by rw [List.length_set]; exact getElem?_lt hbt.opt)] at hx; cases hx

/-! ### C93 -/

variable {A : Allocator} {H₀ : Heap} {s : St}

/-- **C93.** Parsing any arguments into any table (whose string variables are NULL or point to different live strings), with either allocator, ends as the
model with values says (C55-C57, C73): same status, and the variables stand for the same values.  The heap then consists of live containers, the two working strings are gone on every way
out, only options whose pointer was NULL have new strings, made with the allocator passed, and all other containers are as before. -/
theorem C93_parse (h : Reached E A H₀ s) {os : List AOpt} {os' : List ArgOpt.Opt} (ho : List.Forall₂ (Shows (contents s)) os os') (hd : (strNums os).Nodup)
    (args : List Mem) (tr : Bool) :
    RunsAs E A H₀ s (Own.argParse E tr args os) (ArgOpt.parse E args os') fun c' r r' =>
      r.1 = r'.1 ∧ List.Forall₂ (Shows c') r.2 r'.2 ∧ Parsed tr [] (contents s) os c' r.2 :=
  RunsAs.of h (argParse_ends ho hd args)

/-- The caller destroys the strings of its options. -/
def discardAll : List Nat → Prog Unit
  | [] => .out (.ok ())
  | i :: l => do
    discard i
    discardAll l

theorem discardAll_plain : ∀ (l : List Nat) {c : Contents}, l.Nodup → (∀ i ∈ l, ∃ x, c[i]? = some (some x)) →
    ∃ c', (discardAll l).plain E c = .ok (c', ()) ∧ c'.length = c.length ∧ ∀ j, c'[j]? = if j ∈ l then some none else c[j]?
  | [], c, _, _ => ⟨c, rfl, rfl, fun j => by simp⟩
  | i :: l, c, hn, hl => by
    obtain ⟨x, hx⟩ := hl i (by simp)
    obtain ⟨h1, h2⟩ := List.nodup_cons.1 hn
    obtain ⟨c', e, el, g⟩ := discardAll_plain l (c := c.set i none) h2 (by
      intro j hj
      obtain ⟨y, hy⟩ := hl j (List.mem_cons_of_mem _ hj)
      exact ⟨y, by rw [List.getElem?_set_ne (by rintro rfl; exact h1 hj)]; exact hy⟩)
    refine ⟨c', ?_, by rw [el, List.length_set], fun j => ?_⟩
    · show ((Own.discard i >>= fun _ => discardAll l : Prog Unit)).plain E c = _
      rw [plain_bind, discard_plain hx]
      exact e
    · rw [g j]
      by_cases hj : j ∈ l
      · simp [hj]
      · by_cases e : j = i
        · subst e
          rw [if_neg hj, if_pos (by simp), List.getElem?_set_self (getElem?_lt hx)]
        · rw [if_neg hj, if_neg (by simp [e, hj]), List.getElem?_set_ne (Ne.symm e)]

theorem shows_str {c : Contents} {os : List AOpt} {os' : List ArgOpt.Opt} (h : List.Forall₂ (Shows c) os os') :
    ∀ i ∈ strNums os, ∃ x, c[i]? = some (some x) := by
  induction h with
  | nil => intro i hi; cases hi
  | @cons o o' os os' h hs ih =>
    intro i hi
    rw [strNums_cons] at hi
    rcases List.mem_append.1 hi with hi | hi
    · obtain ⟨l, s, v, ty⟩ := o
      obtain ⟨-, -, -, h⟩ := h
      cases v with
      | none => cases hi
      | some v =>
        cases v with
        | other x => cases hi
        | str n =>
          cases n with
          | none => cases hi
          | some n =>
            have : i = n := by simpa [AOpt.num] using hi
            subst this
            obtain ⟨-, t, a, hc, -⟩ := h
            exact ⟨_, hc⟩
    · exact ih i hi

/-- **C93, nothing is lost.** A caller that starts with NULL pointers and afterwards destroys the strings its options point to has every container
as before and no new one, whatever the arguments were and however parsing ended. -/
theorem C93_release (h : Reached E A H₀ s) {os : List AOpt} {os' : List ArgOpt.Opt} (ho : List.Forall₂ (Shows (contents s)) os os')
    (hnull : ∀ o ∈ os, o.num = none) (args : List Mem) (tr : Bool) :
    RunsAs E A H₀ s (do
        let r ← Own.argParse E tr args os
        discardAll (strNums r.2)
        .out (.ok r.1)) (ArgOpt.parse E args os') fun c' st r' => st = r'.1 ∧ Clean (contents s) c' := by
  have h0 : strNums os = [] := by
    rw [List.eq_nil_iff_forall_not_mem]
    intro i hi
    obtain ⟨o, ho, e⟩ := mem_strNums.1 hi
    rw [hnull o ho] at e
    cases e
  refine RunsAs.of h ?_
  rw [show ArgOpt.parse E args os' = ArgOpt.parse E args os' >>= fun r => .ok r by cases ArgOpt.parse E args os' <;> rfl]
  refine EndsLike.bind (argParse_ends (tr := tr) ho (by rw [h0]; exact List.nodup_nil) args) ?_
  rintro c1 ⟨st, l⟩ ⟨st', l'⟩ - ⟨rfl, hs, hp⟩
  obtain ⟨c2, e2, l2, g2⟩ := discardAll_plain (E := E) (strNums l) hp.distinct (shows_str hs)
  refine EndsLike.seq (Q := fun c' _ => c' = c2) (by rw [e2]; exact Or.inr ⟨_, _, rfl, rfl⟩) ?_
  rintro c' _ rfl
  refine EndsLike.ok ⟨rfl, clean_of (by rw [l2]; exact hp.len) ?_ ?_⟩
  · intro i hi
    rw [g2, if_neg, hp.kept i hi (by rw [h0]; simp)]
    intro hm
    rcases hp.old hm with h | h
    · rw [h0] at h; cases h
    · omega
  · intro i hi hi'
    rw [g2]
    split
    · rfl
    · next hm =>
      rw [l2] at hi'
      cases hx : c1[i]? with
      | none => rw [List.getElem?_eq_none_iff] at hx; omega
      | some x =>
        cases x with
        | none => rfl
        | some x => exact absurd (hp.new i hi (by simp) x hx).1 hm

end

/-- The example table of `Props/ArgOpt.lean`; the string is number `n`. -/
def exAOpts (n : Option Nat) : List AOpt :=
  [⟨some (zstr (chars' "--num")), some (zstr (chars' "-n")), some (.other (.int 7)), .int ⟨true, 32⟩⟩,
   ⟨some (zstr (chars' "--str")), some (zstr (chars' "-s")), some (.str n), .str⟩,
   ⟨some (zstr (chars' "--flag")), some (zstr (chars' "-f")), some (.other (.bool false)), .bool⟩]

/-- Example: the hypotheses hold for the table. -/
example (c : Contents) : ∃ os', List.Forall₂ (Shows c) (exAOpts none) os' ∧ (strNums (exAOpts none)).Nodup ∧ ∀ o ∈ exAOpts none, o.num = none :=
  ⟨[⟨_, _, some (.int 7), _⟩, ⟨_, _, some (.str none), _⟩, ⟨_, _, some (.bool false), _⟩],
    .cons ⟨rfl, rfl, rfl, by simp, rfl⟩ (.cons ⟨rfl, rfl, rfl, rfl, rfl⟩ (.cons ⟨rfl, rfl, rfl, by simp, rfl⟩ .nil)), by decide, by decide⟩

/-- Example: a string option given twice, then an option that does not exist: the status is -1, and one string (two blocks) is left besides the blocks of the allocator. -/
example : (onEmpty (Own.argParse malE true (argv ["-s", "ab", "--str=xyz", "--no"]) (exAOpts none))).mapOk
    (fun r => (r.1.1, strNums r.1.2, r.2.map (·.2))) = .ok (-1, [2], [4, 56, 256, 88]) := by
  decide +kernel

/-- Example: into a string that exists already nothing is created. -/
example : (onEmpty (do
      let n ← make false (.str (zstr (chars' "longer")))
      Own.argParse malE true (argv ["-f", "--str=xyz"]) (exAOpts (some n)))).mapOk
    (fun r => (r.1.1, strNums r.1.2, r.2.map (·.2))) = .ok (0, [0], [7, 56, 256, 88]) := by
  decide +kernel

end Vita
