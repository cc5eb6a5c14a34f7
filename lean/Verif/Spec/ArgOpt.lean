import Verif.Spec.Text
/-!
# How an argument list is to be read

Texts only: nothing here refers to the model of argopt.c.
-/

namespace Vita
namespace Spec

/-- The long and the short name of each option. -/
abbrev Names := List (Text × Text)

/-- `k` is a name of option `j`, and of no earlier option. -/
def Names.Option (ns : Names) (k : Text) (j : Nat) : Prop :=
  (∃ p, ns[j]? = some p ∧ (p.1 = k ∨ p.2 = k)) ∧ ∀ i, i < j → ∀ p, ns[i]? = some p → p.1 ≠ k ∧ p.2 ≠ k

/-- `k` is not the name of any option. -/
def Names.Unknown (ns : Names) (k : Text) : Prop := ∀ p ∈ ns, p.1 ≠ k ∧ p.2 ≠ k

/-- The argument has no key before an equals sign (61 is `=`). -/
def Plain (a : Text) : Prop := a.head? = some 61 ∨ 61 ∉ a

/-- Reading the arguments gives the assignments (option, value) in order; the last component is the argument at which reading stopped, if it
was not recognised.  45 is `-`, 49 is `1`.  If `strict` (in a debug build) reading stops at an empty argument in the place of an option, even if there is an option
with an empty name. -/
inductive Reads (strict : Bool) (ns : Names) : List Text → List (Nat × Text) → Option Text → Prop
  | done : Reads strict ns [] [] none
  | keyVal {k v : Text} {j : Nat} {rest : List Text} {as : List (Nat × Text)} {r : Option Text} : k ≠ [] → 61 ∉ k → ns.Option k j →
      Reads strict ns rest as r → Reads strict ns ((k ++ 61 :: v) :: rest) ((j, v) :: as) r
  | value {a v : Text} {j : Nat} {rest : List Text} {as : List (Nat × Text)} {r : Option Text} : Plain a → ns.Option a j → (strict = true → a ≠ []) →
      v.head? ≠ some 45 → Reads strict ns rest as r → Reads strict ns (a :: v :: rest) ((j, v) :: as) r
  | flag {a : Text} {j : Nat} {rest : List Text} {as : List (Nat × Text)} {r : Option Text} : Plain a → ns.Option a j → (strict = true → a ≠ []) →
      (∀ v, rest.head? = some v → v.head? = some 45) → Reads strict ns rest as r → Reads strict ns (a :: rest) ((j, [49]) :: as) r
  | unknownKey {k v : Text} {rest : List Text} : k ≠ [] → 61 ∉ k → ns.Unknown k →
      Reads strict ns ((k ++ 61 :: v) :: rest) [] (some (k ++ 61 :: v))
  | unknown {a : Text} {rest : List Text} : Plain a → ns.Unknown a ∨ (strict = true ∧ a = []) → Reads strict ns (a :: rest) [] (some a)

/-- The value of the last assignment to option `j`. -/
def lastValue (as : List (Nat × Text)) (j : Nat) : Option Text := ((as.filter fun a => a.1 == j).getLast?).map Prod.snd

theorem lastValue_cons (j : Nat) (v : Text) (as : List (Nat × Text)) (i : Nat) :
    lastValue ((j, v) :: as) i = (lastValue as i).or (if j = i then some v else none) := by
  unfold lastValue
  rw [List.filter_cons]
  by_cases h : j = i
  · subst h
    simp only [beq_self_eq_true, if_true, List.getLast?_cons]
    cases List.getLast? (List.filter (fun a => a.1 == j) as) <;> rfl
  · simp [h]

/-- Every key is an option or unknown. -/
theorem Names.option_or_unknown (ns : Names) (k : Text) : (∃ j, ns.Option k j) ∨ ns.Unknown k := by
  induction ns with
  | nil => right; intro p hp; cases hp
  | cons q ns ih =>
    by_cases h : q.1 = k ∨ q.2 = k
    · left
      exact ⟨0, ⟨q, rfl, h⟩, fun i hi => absurd hi (Nat.not_lt_zero _)⟩
    · have h : q.1 ≠ k ∧ q.2 ≠ k := by
        constructor <;> intro e <;> exact h (by simp [e])
      rcases ih with ⟨j, ⟨p, hp, hk⟩, hb⟩ | hu
      · left
        refine ⟨j + 1, ⟨p, by simpa using hp, hk⟩, ?_⟩
        intro i hi p' hp'
        cases i with
        | zero => simp at hp'; subst hp'; exact h
        | succ i => exact hb i (by omega) p' (by simpa using hp')
      · right
        intro p hp
        rcases List.mem_cons.1 hp with rfl | hp
        · exact h
        · exact hu p hp

theorem plain_or_key (a : Text) : Plain a ∨ ∃ k v, a = k ++ 61 :: v ∧ k ≠ [] ∧ 61 ∉ k := by
  by_cases h : (61 : UInt8) ∈ a
  · obtain ⟨k, v, e, hk⟩ := List.eq_append_cons_of_mem h
    cases k with
    | nil => left; left; rw [e]; rfl
    | cons c k => right; exact ⟨c :: k, v, e, by simp, hk⟩
  · left; right; exact h

/-- Every argument list can be read. -/
theorem reads_total (strict : Bool) (ns : Names) : ∀ (n : Nat) (args : List Text), args.length ≤ n → ∃ as r, Reads strict ns args as r := by
  intro n
  induction n with
  | zero =>
    intro args h
    obtain rfl : args = [] := List.length_eq_zero_iff.1 (by omega)
    exact ⟨[], none, .done⟩
  | succ n ih =>
    intro args h
    cases args with
    | nil => exact ⟨[], none, .done⟩
    | cons a rest =>
      simp only [List.length_cons] at h
      rcases plain_or_key a with hp | ⟨k, v, rfl, hk, hk'⟩
      · by_cases hs : strict = true ∧ a = []
        · exact ⟨_, _, .unknown hp (Or.inr hs)⟩
        have hs : strict = true → a ≠ [] := fun h1 h2 => hs ⟨h1, h2⟩
        rcases ns.option_or_unknown a with ⟨j, hj⟩ | hu
        · cases rest with
          | nil => exact ⟨_, _, .flag hp hj hs (by simp) .done⟩
          | cons v rest =>
            simp only [List.length_cons] at h
            by_cases hv : v.head? = some 45
            · obtain ⟨as, r, hr⟩ := ih (v :: rest) (by simp; omega)
              exact ⟨_, _, .flag hp hj hs (by simpa using hv) hr⟩
            · obtain ⟨as, r, hr⟩ := ih rest (by omega)
              exact ⟨_, _, .value hp hj hs hv hr⟩
        · exact ⟨_, _, .unknown hp (Or.inl hu)⟩
      · rcases ns.option_or_unknown k with ⟨j, hj⟩ | hu
        · obtain ⟨as, r, hr⟩ := ih rest (by omega)
          exact ⟨_, _, .keyVal hk hk' hj hr⟩
        · exact ⟨_, _, .unknownKey hk hk' hu⟩

theorem Names.Option.unique {ns : Names} {k : Text} {i j : Nat} (hi : ns.Option k i) (hj : ns.Option k j) : i = j := by
  obtain ⟨⟨p, hp, hk⟩, hb⟩ := hi
  obtain ⟨⟨q, hq, hl⟩, hc⟩ := hj
  rcases Nat.lt_trichotomy i j with h | h | h
  · have := hc i h p hp
    rcases hk with hk | hk
    · exact absurd hk this.1
    · exact absurd hk this.2
  · exact h
  · have := hb j h q hq
    rcases hl with hk | hk
    · exact absurd hk this.1
    · exact absurd hk this.2

theorem Names.Option.known {ns : Names} {k : Text} {j : Nat} (hj : ns.Option k j) : ¬ ns.Unknown k := by
  obtain ⟨⟨p, hp, hk⟩, -⟩ := hj
  intro hu
  have := hu p (List.mem_of_getElem? hp)
  rcases hk with hk | hk
  · exact this.1 hk
  · exact this.2 hk

theorem key_not_plain {k v : Text} (h1 : k ≠ []) (h2 : 61 ∉ k) : ¬ Plain (k ++ 61 :: v) := by
  rintro (h | h)
  · cases k with
    | nil => exact h1 rfl
    | cons c k => simp at h; subst h; simp at h2
  · simp at h

theorem key_unique {k k' v v' : Text} (h2 : 61 ∉ k) (h2' : 61 ∉ k') (e : k ++ 61 :: v = k' ++ 61 :: v') : k = k' ∧ v = v' := by
  induction k generalizing k' with
  | nil =>
    cases k' with
    | nil => simpa using e
    | cons c k' => simp at e; rw [← e.1] at h2'; simp at h2'
  | cons c k ih =>
    cases k' with
    | nil => simp at e; rw [e.1] at h2; simp at h2
    | cons c' k' =>
      simp only [List.cons_append, List.cons.injEq] at e
      obtain ⟨e1, e2⟩ := ih (by simp at h2; exact h2.2) (by simp at h2'; exact h2'.2) e.2
      exact ⟨by rw [e.1, e1], e2⟩

/-- An argument list can be read in one way only. -/
theorem reads_unique {strict : Bool} {ns : Names} {args : List Text} {as bs : List (Nat × Text)} {r s : Option Text} (h : Reads strict ns args as r)
    (h' : Reads strict ns args bs s) : as = bs ∧ r = s := by
  induction h generalizing bs s with
  | done => cases h'; exact ⟨rfl, rfl⟩
  | @keyVal k v j rest as r hk hk' hj hr ih =>
    generalize e : (k ++ 61 :: v) :: rest = l at h'
    cases h' with
    | done => cases e
    | @keyVal k2 v2 j2 rest2 as2 r2 hk2 hk2' hj2 hr2 =>
      obtain ⟨e1, rfl⟩ := List.cons.inj e
      obtain ⟨rfl, rfl⟩ := key_unique hk' hk2' e1
      obtain ⟨rfl, rfl⟩ := ih hr2
      rw [hj.unique hj2]; exact ⟨rfl, rfl⟩
    | value hp _ _ _ _ => obtain ⟨e1, -⟩ := List.cons.inj e; subst e1; exact absurd hp (key_not_plain hk hk')
    | flag hp _ _ _ _ => obtain ⟨e1, -⟩ := List.cons.inj e; subst e1; exact absurd hp (key_not_plain hk hk')
    | @unknownKey k2 v2 rest2 hk2 hk2' hu =>
      obtain ⟨e1, rfl⟩ := List.cons.inj e
      obtain ⟨rfl, rfl⟩ := key_unique hk' hk2' e1
      exact absurd hu hj.known
    | unknown hp _ => obtain ⟨e1, -⟩ := List.cons.inj e; subst e1; exact absurd hp (key_not_plain hk hk')
  | @value a v j rest as r hp hj hs hv hr ih =>
    generalize e : a :: v :: rest = l at h'
    cases h' with
    | done => cases e
    | keyVal hk2 hk2' hj2 hr2 => obtain ⟨e1, -⟩ := List.cons.inj e; subst e1; exact absurd hp (key_not_plain hk2 hk2')
    | value hp2 hj2 hs2 hv2 hr2 =>
      simp only [List.cons.injEq] at e
      obtain ⟨rfl, rfl, rfl⟩ := e
      obtain ⟨rfl, rfl⟩ := ih hr2
      rw [hj.unique hj2]; exact ⟨rfl, rfl⟩
    | flag hp2 hj2 hs2 hv2 hr2 =>
      obtain ⟨rfl, rfl⟩ := List.cons.inj e
      exact absurd (hv2 v rfl) hv
    | unknownKey hk2 hk2' hu => obtain ⟨e1, -⟩ := List.cons.inj e; subst e1; exact absurd hp (key_not_plain hk2 hk2')
    | unknown hp2 hu => obtain ⟨rfl, -⟩ := List.cons.inj e; exact (hu.elim (absurd · hj.known) fun h => absurd h.2 (hs h.1))
  | @flag a j rest as r hp hj hs hv hr ih =>
    generalize e : a :: rest = l at h'
    cases h' with
    | done => cases e
    | keyVal hk2 hk2' hj2 hr2 => obtain ⟨e1, -⟩ := List.cons.inj e; subst e1; exact absurd hp (key_not_plain hk2 hk2')
    | value hp2 hj2 hs2 hv2 hr2 =>
      obtain ⟨rfl, rfl⟩ := List.cons.inj e
      exact absurd (hv _ rfl) hv2
    | flag hp2 hj2 hs2 hv2 hr2 =>
      obtain ⟨rfl, rfl⟩ := List.cons.inj e
      obtain ⟨rfl, rfl⟩ := ih hr2
      rw [hj.unique hj2]; exact ⟨rfl, rfl⟩
    | unknownKey hk2 hk2' hu => obtain ⟨e1, -⟩ := List.cons.inj e; subst e1; exact absurd hp (key_not_plain hk2 hk2')
    | unknown hp2 hu => obtain ⟨rfl, -⟩ := List.cons.inj e; exact (hu.elim (absurd · hj.known) fun h => absurd h.2 (hs h.1))
  | @unknownKey k v rest hk hk' hu =>
    generalize e : (k ++ 61 :: v) :: rest = l at h'
    cases h' with
    | done => cases e
    | @keyVal k2 v2 j2 rest2 as2 r2 hk2 hk2' hj2 hr2 =>
      obtain ⟨e1, rfl⟩ := List.cons.inj e
      obtain ⟨rfl, rfl⟩ := key_unique hk' hk2' e1
      exact absurd hu hj2.known
    | value hp _ _ _ _ => obtain ⟨e1, -⟩ := List.cons.inj e; subst e1; exact absurd hp (key_not_plain hk hk')
    | flag hp _ _ _ _ => obtain ⟨e1, -⟩ := List.cons.inj e; subst e1; exact absurd hp (key_not_plain hk hk')
    | unknownKey hk2 hk2' hu2 => obtain ⟨e1, -⟩ := List.cons.inj e; rw [e1]; exact ⟨rfl, rfl⟩
    | unknown hp _ => obtain ⟨e1, -⟩ := List.cons.inj e; subst e1; exact absurd hp (key_not_plain hk hk')
  | @unknown a rest hp hu =>
    generalize e : a :: rest = l at h'
    cases h' with
    | done => cases e
    | keyVal hk2 hk2' hj2 hr2 => obtain ⟨e1, -⟩ := List.cons.inj e; subst e1; exact absurd hp (key_not_plain hk2 hk2')
    | value hp2 hj2 hs2 hv2 hr2 => obtain ⟨rfl, -⟩ := List.cons.inj e; exact (hu.elim (absurd · hj2.known) fun h => absurd h.2 (hs2 h.1))
    | flag hp2 hj2 hs2 hv2 hr2 => obtain ⟨rfl, -⟩ := List.cons.inj e; exact (hu.elim (absurd · hj2.known) fun h => absurd h.2 (hs2 h.1))
    | unknownKey hk2 hk2' hu2 => obtain ⟨e1, -⟩ := List.cons.inj e; subst e1; exact absurd hp (key_not_plain hk2 hk2')
    | unknown hp2 hu2 => obtain ⟨rfl, -⟩ := List.cons.inj e; exact ⟨rfl, rfl⟩

end Spec
end Vita
