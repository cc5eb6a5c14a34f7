import Verif.Props.ArgOpt
import Verif.Props.ConvFloat
/-!
# C139: values that one program writes into a command line arrive in another one
-/

namespace Vita
open Out Spec ArgOpt Conv

/-- The text `v` was made from the value: a number by `vt_conv_*_to_str`, in a buffer of any size that was large enough; a truth value as `1` or `0`; a
character as itself; a string as its text. -/
def WrittenAs (ty : Ty) (val : Val) (v : Text) : Prop :=
  match ty, val with
  | .int T, .int x => T ∈ intTys ∧ T.Has x ∧ ∃ buf n buf', n ≤ List.length buf ∧ toStr buf n x = .ok buf' ∧ CStr buf' v
  | .flt f, .flt x => f ∈ floatTys ∧ x.Of f ∧ ∃ buf n buf', n ≤ List.length buf ∧ fToStr buf n x = .ok buf' ∧ CStr buf' v
  | .bool, .bool b => v = [if b then 49 else 48]
  | .char, .char c => v = [c]
  | .str, .str (some a) => IsStr a v
  | .cstr, .cstr (some m) => CStr m v
  | _, _ => False

/-- What becomes of a value: whole numbers that are not negative, truth values, characters and texts stay what they are; fractions stay what they are to
within a millionth; negative numbers (and infinities) become zero. -/
def Arrives (ty : Ty) (val val' : Val) : Prop :=
  match ty, val, val' with
  | .int _, .int x, .int y => y = if x < 0 then 0 else x
  | .flt f, .flt (.fin false x), .flt y => ∃ r, y = .fin false r ∧ (FNum.fin false r).Of f ∧ |r - x| ≤ 1 / 10 ^ 6
  | .flt _, .flt _, .flt y => y = .fin false 0
  | .bool, .bool b, .bool b' => b' = b
  | .char, .char c, .char c' => c' = c
  | .str, .str (some a), .str (some a') => ∃ t, IsStr a t ∧ IsStr a' t
  | .cstr, .cstr (some m), .cstr (some m') => ∃ t, scanZ m = .ok t ∧ scanZ m' = .ok t
  | _, _, _ => False

theorem arrives_of {ty : Ty} {val val' : Val} {v : Text} (hw : WrittenAs ty val v) (ho : OptHolds ty v val') : Arrives ty val val' := by
  cases ty with
  | int T =>
    cases val <;> try exact hw.elim
    cases val' <;> try exact ho.elim
    rename_i x y
    obtain ⟨hT, hx, buf, n, buf', hn, e, hc⟩ := hw
    simp only [OptHolds, strToT_eq (cstr_zstr hc.nz hc.lim) T] at ho
    rw [← strToT_eq hc T] at ho
    show y = if x < 0 then 0 else x
    split
    · rename_i h0
      rw [C47_negative_becomes_zero hT hx h0 hn e] at ho
      exact (Out.ok.inj ho).symm
    · rename_i h0
      rw [roundtrip hT hx (by omega) hn e] at ho
      exact (Out.ok.inj ho).symm
  | flt f =>
    cases val <;> try exact hw.elim
    cases val' <;> try exact ho.elim
    rename_i x y
    obtain ⟨hf, hx, buf, n, buf', hn, e, hc⟩ := hw
    simp only [OptHolds, convStrToF_eq (cstr_zstr hc.nz hc.lim) f] at ho
    rw [← convStrToF_eq hc f] at ho
    by_cases hq : ∃ q, x = .fin false q
    · obtain ⟨q, rfl⟩ := hq
      obtain ⟨r, e', h1, h2⟩ := C91_round_trip_partial hf hx hn e
      rw [e'] at ho
      exact ⟨r, (Out.ok.inj ho).symm, h1, h2⟩
    · rw [C91_negative_becomes_zero hf hx (fun q h => hq ⟨q, h⟩) hn e] at ho
      have : y = .fin false 0 := (Out.ok.inj ho).symm
      cases x with
      | fin neg q =>
        cases neg with
        | false => exact absurd ⟨q, rfl⟩ hq
        | true => exact this
      | inf _ => exact this
      | nan _ => exact this
  | bool =>
    cases val <;> try exact hw.elim
    cases val' <;> try exact ho.elim
    rename_i b b'
    simp only [WrittenAs] at hw
    subst hw
    simp only [OptHolds] at ho
    show b' = b
    cases b <;> cases b' <;> simp_all
  | char =>
    cases val <;> try exact hw.elim
    cases val' <;> try exact ho.elim
    simp only [WrittenAs] at hw
    subst hw
    exact ho
  | str =>
    cases val <;> try exact hw.elim
    rename_i a
    cases a <;> try exact hw.elim
    cases val' <;> try exact ho.elim
    rename_i a'
    cases a' <;> try exact ho.elim
    exact ⟨v, hw, ho⟩
  | cstr =>
    cases val <;> try exact hw.elim
    rename_i a
    cases a <;> try exact hw.elim
    cases val' <;> try exact ho.elim
    rename_i a'
    cases a' <;> try exact ho.elim
    exact ⟨v, hw.text, ho⟩
  | rest => exact hw.elim
  | bad => exact hw.elim

theorem lastValue_mem {as : List (Nat × Text)} {j : Nat} : (∀ v, lastValue as j = some v → (j, v) ∈ as) ∧ ((∃ v, (j, v) ∈ as) → lastValue as j ≠ none) := by
  constructor
  · intro v h
    simp only [lastValue, Option.map_eq_some_iff] at h
    obtain ⟨⟨i, u⟩, h, rfl⟩ := h
    have := List.mem_filter.1 (List.mem_of_getLast? h)
    obtain ⟨h1, h2⟩ := this
    have : i = j := by simpa using h2
    subst this
    exact h1
  · rintro ⟨v, h⟩ hn
    simp only [lastValue, Option.map_eq_none_iff, List.getLast?_eq_none_iff, List.filter_eq_nil_iff] at hn
    exact hn _ h (by simp)

/-- **C139** (partial: negative numbers arrive as zero; empty strings end a debug build and are excluded by `Ready`, as is an old C string of another
length, see C57.)  A command line is made of the parts `name=text`, in any order, for any of the options of a table, where the texts were written from the
values `src`.  Then parsing it succeeds, every option that was given holds the value as it was sent, and the others keep their values. -/
theorem C139_invocation_partial {E : Env} {opts : List Opt} {ns : Names} {src : List Val} {zs : List Mem} {sends : List (Nat × Text × Text)}
    (ht : IsTable opts ns) (h0 : opts ≠ []) (hz : List.Forall₂ CStr zs (sends.map fun x => x.2.1 ++ 61 :: x.2.2))
    (hh : ¬ AsksHelp (sends.map fun x => x.2.1 ++ 61 :: x.2.2))
    (hs : ∀ x ∈ sends, x.2.1 ≠ [] ∧ 61 ∉ x.2.1 ∧ ns.Option x.2.1 x.1 ∧
      ∃ o old val, opts[x.1]? = some o ∧ o.value = some old ∧ src[x.1]? = some val ∧ WrittenAs o.ty val x.2.2 ∧ Ready o.ty x.2.2 old) :
    OkOr E (((sends.map fun x => x.2.1 ++ 61 :: x.2.2).map List.length).sum + 73) (parse E zs opts) fun q => q.1 = 0 ∧ q.2.length = opts.length ∧
      ∀ j o, opts[j]? = some o → ∃ o', q.2[j]? = some o' ∧ o'.long = o.long ∧ o'.short = o.short ∧ o'.ty = o.ty ∧
        if ∃ x ∈ sends, x.1 = j then ∃ val val', src[j]? = some val ∧ o'.value = some val' ∧ Arrives o.ty val val' else o'.value = o.value := by
  have hrd : ∀ (l : List (Nat × Text × Text)), (∀ x ∈ l, x.2.1 ≠ [] ∧ 61 ∉ x.2.1 ∧ ns.Option x.2.1 x.1) →
      Reads E.debug ns (l.map fun x => x.2.1 ++ 61 :: x.2.2) (l.map fun x => (x.1, x.2.2)) none := by
    intro l
    induction l with
    | nil => intro _; exact .done
    | cons x l ih =>
      intro h
      obtain ⟨h1, h2, h3⟩ := h x (by simp)
      exact .keyVal h1 h2 h3 (ih fun y hy => h y (by simp [hy]))
  have hready : AllReady opts (sends.map fun x => (x.1, x.2.2)) := by
    intro j v hm
    obtain ⟨x, hx, e⟩ := List.mem_map.1 hm
    obtain ⟨rfl, rfl⟩ := Prod.mk.inj e
    obtain ⟨-, -, -, o, old, val, g1, g2, g3, g4, g5⟩ := hs x hx
    refine ⟨o, old, g1, g2, g5, fun hty v' hm' => ?_⟩
    obtain ⟨y, hy, e⟩ := List.mem_map.1 hm'
    obtain ⟨e1, rfl⟩ := Prod.mk.inj e
    obtain ⟨-, -, -, o', old', val', k1, k2, k3, k4, k5⟩ := hs y hy
    rw [e1, g1] at k1
    obtain rfl := Option.some.inj k1
    rw [e1, g3] at k3
    obtain rfl := Option.some.inj k3
    rw [hty] at g4 k4
    cases val <;> try exact g4.elim
    rename_i a
    cases a <;> try exact g4.elim
    have := g4.text.symm.trans k4.text
    rw [Out.ok.inj this]
  have hpart := C55_parse_partial (E := E) ht h0 hz hh (hrd sends fun x hx => ⟨(hs x hx).1, (hs x hx).2.1, (hs x hx).2.2.1⟩) hready
  refine hpart.mono ?_
  rintro q ⟨h1, h2, h3⟩
  refine ⟨h1, h2, fun j o ho => ?_⟩
  obtain ⟨o', k1, k2, k3, k4, k5⟩ := h3 j o ho
  refine ⟨o', k1, k2, k3, k4, ?_⟩
  split
  · rename_i hx
    obtain ⟨x, hx, rfl⟩ := hx
    cases hlv : lastValue (sends.map fun x => (x.1, x.2.2)) x.1 with
    | none => exact absurd hlv (lastValue_mem.2 ⟨x.2.2, List.mem_map.2 ⟨x, hx, rfl⟩⟩)
    | some v =>
      rw [hlv] at k5
      obtain ⟨val', hv', hold⟩ := k5
      obtain ⟨y, hy, e⟩ := List.mem_map.1 (lastValue_mem.1 v hlv)
      obtain ⟨e1, rfl⟩ := Prod.mk.inj e
      obtain ⟨-, -, -, o2, old, val, g1, g2, g3, g4, g5⟩ := hs y hy
      rw [e1] at g1 g3
      rw [ho] at g1
      obtain rfl := Option.some.inj g1
      exact ⟨val, val', g3, hv', arrives_of g4 hold⟩
  · rename_i hx
    cases hlv : lastValue (sends.map fun x => (x.1, x.2.2)) j with
    | none => rwa [hlv] at k5
    | some v =>
      obtain ⟨y, hy, e⟩ := List.mem_map.1 (lastValue_mem.1 v hlv)
      exact absurd ⟨y, hy, (Prod.mk.inj e).1⟩ hx

/-! Examples: a number, a text and a truth value are sent; then a negative number. -/

example : (parse exE (argv ["--num=37", "--str=a b", "--flag=0"]) exOpts).mapOk (fun q => (q.1, q.2.map (·.value.isSome))) =
    .ok (0, [true, true, true, true]) := by decide +kernel
example : WrittenAs (.int ⟨true, 32⟩) (.int 37) [51, 55] ∧ Ready (.int ⟨true, 32⟩) [51, 55] (.int 7) :=
  ⟨⟨by decide, by norm_num [IntTy.Has], List.replicate 5 none, 5, [some 51, some 55, some 0, none, none], by decide, by decide +kernel, by decide +kernel, by decide +kernel⟩, trivial⟩
example : (parse exE (argv ["--num=-5"]) exOpts).mapOk (fun q => (q.1, q.2.map (·.value))) =
    .ok (0, [some (.int 0), some (.str none), some (.cstr none), some (.bool false)]) := by decide +kernel
example : WrittenAs .bool (.bool false) [48] ∧ Ready .bool [48] (.bool true) := ⟨rfl, trivial⟩

end Vita
