import Verif.Model.Conv
import Verif.Spec.Numeral
import Verif.Props.StrQuery
import Mathlib.Data.Nat.Digits.Lemmas
import Mathlib.Tactic.Ring
/-!
# Properties C46-C48: conversion between integers and text
-/

namespace Vita
open Out Spec Conv

seal wadd wsub wmul

/-- The values of an integer type. -/
def Conv.IntTy.Has (T : IntTy) (v : Int) : Prop :=
  if T.signed then -2 ^ (T.bits - 1) ≤ v ∧ v < 2 ^ (T.bits - 1) else 0 ≤ v ∧ v < 2 ^ T.bits

theorem castTo_of_has {T : IntTy} (hT : T ∈ intTys) {v : Int} (h : T.Has v) : castTo T v = v := by
  simp only [intTys, List.mem_cons, List.not_mem_nil, or_false] at hT
  rcases hT with rfl | rfl | rfl | rfl | rfl | rfl | rfl | rfl <;>
    simp [IntTy.Has] at h <;> simp [castTo] <;> (try split) <;> omega

theorem has_lt {T : IntTy} (hT : T ∈ intTys) {v : Int} (h : T.Has v) :
    -2 ^ 63 ≤ v ∧ v < 2 ^ 64 ∧ (T.signed = true → v < 2 ^ 63) := by
  simp only [intTys, List.mem_cons, List.not_mem_nil, or_false] at hT
  rcases hT with rfl | rfl | rfl | rfl | rfl | rfl | rfl | rfl <;> simp [IntTy.Has] at h ⊢ <;> omega

theorem isdigit_iff (c : UInt8) : isdigit c = true ↔ IsDigit c := by
  simp only [isdigit, IsDigit, Bool.and_eq_true, decide_eq_true_eq, UInt8.le_iff_toNat_le]
  exact Iff.rfl

/-! ### Numerals -/

theorem digitChar_toNat {d : Nat} (h : d < 10) : (UInt8.ofNat (48 + d)).toNat = 48 + d := by
  rw [UInt8.toNat_ofNat_of_lt']
  show 48 + d < 256
  omega

theorem numeral_small {n : Nat} (h : n < 10) : numeral n = [UInt8.ofNat (48 + n)] := by
  rcases Nat.eq_zero_or_pos n with rfl | h0
  · rfl
  · simp only [numeral, if_neg (show ¬ n = 0 by omega), Nat.digits_of_lt 10 n (by omega) h, List.reverse_singleton,
      List.map_cons, List.map_nil]

theorem numeral_big {n : Nat} (h : 10 ≤ n) : numeral n = numeral (n / 10) ++ [UInt8.ofNat (48 + n % 10)] := by
  simp only [numeral, if_neg (show ¬ n = 0 by omega), if_neg (show ¬ n / 10 = 0 by omega)]
  rw [Nat.digits_def' (by omega) (by omega : 0 < n)]
  simp

theorem printU_eq : ∀ (k n : Nat), n < 10 ^ (k + 1) → printU (k + 1) n = numeral n
  | 0, n, h => by
    have h : n < 10 := by simpa using h
    rw [printU, if_pos h, numeral_small h]
  | k + 1, n, h => by
    by_cases h10 : n < 10
    · rw [printU, if_pos h10, numeral_small h10]
    · rw [printU, if_neg h10, numeral_big (by omega), printU_eq k (n / 10)]
      rw [Nat.div_lt_iff_lt_mul (by omega)]
      rw [pow_succ] at h
      omega

theorem numeral_length_le {n k : Nat} (hk : 0 < k) (h : n < 10 ^ k) : (numeral n).length ≤ k := by
  unfold numeral
  split
  · simpa using Nat.succ_le_of_lt hk
  · rw [List.length_map, List.length_reverse]
    exact (Nat.digits_length_le_iff (by omega) n).2 h

theorem numeral_digit {n : Nat} : ∀ c ∈ numeral n, IsDigit c := by
  intro c hc
  unfold numeral at hc
  split at hc
  · simp only [List.mem_singleton] at hc
    subst hc
    decide
  · simp only [List.mem_map, List.mem_reverse] at hc
    obtain ⟨d, hd, rfl⟩ := hc
    have := Nat.digits_lt_base (by omega) hd
    rw [IsDigit, digitChar_toNat this]
    omega

/-- A numeral denotes its number. -/
theorem digitsValue_numeral (n : Nat) : digitsValue (numeral n) = n := by
  unfold numeral
  split
  · subst n; rfl
  · rw [digitsValue, ← List.map_reverse, List.reverse_reverse, List.map_map]
    have : (Nat.digits 10 n).map ((fun c : UInt8 => c.toNat - 48) ∘ fun d => UInt8.ofNat (48 + d)) = Nat.digits 10 n := by
      conv_rhs => rw [← List.map_id (Nat.digits 10 n)]
      apply List.map_congr_left
      intro d hd
      simp only [Function.comp, digitChar_toNat (Nat.digits_lt_base (by omega) hd), id]
      omega
    rw [this, Nat.ofDigits_digits]

theorem printD_eq {v : Int} (h1 : -2 ^ 63 ≤ v) (h2 : v < 2 ^ 64) : printD v = numeralInt v := by
  have hn : v.natAbs < 10 ^ 20 := by omega
  rw [printD, printU_eq 19 _ hn, numeralInt]
  split
  · rfl
  · have : v.natAbs = v.toNat := by omega
    rw [this]; rfl

theorem numeralInt_length {v : Int} (h1 : -2 ^ 63 ≤ v) (h2 : v < 2 ^ 64) : (numeralInt v).length ≤ 21 := by
  have hn : v.natAbs < 10 ^ 20 := by omega
  have hn' : v.toNat < 10 ^ 20 := by omega
  rw [numeralInt]
  split
  · have := numeral_length_le (by omega) hn
    simp only [List.length_cons]; omega
  · have := numeral_length_le (by omega) hn'
    omega

theorem numeralInt_nz (v : Int) : 0 ∉ numeralInt v := by
  intro hc
  rw [numeralInt] at hc
  split at hc
  · rcases List.mem_cons.1 hc with hc | hc
    · cases hc
    · have := numeral_digit _ hc; revert this; decide
  · have := numeral_digit _ hc; revert this; decide

/-! ### Reading numbers -/

theorem digitsVal_append : ∀ (ds : Text) (acc : Nat) (rest : Text), (∀ c ∈ ds, IsDigit c) →
    (∀ c r, rest = c :: r → ¬ IsDigit c) → digitsVal acc (ds ++ rest) = digitsValue ds + 10 ^ ds.length * acc
  | [], acc, rest, _, h2 => by
    cases rest with
    | nil => simp [digitsVal, digitsValue]
    | cons c r =>
      have := h2 c r rfl
      rw [← isdigit_iff] at this
      simp [digitsVal, digitsValue, this]
  | c :: ds, acc, rest, h1, h2 => by
    have hc := (isdigit_iff c).2 (h1 c (by simp))
    rw [List.cons_append, digitsVal, if_pos hc, digitsVal_append ds _ rest (fun d hd => h1 d (by simp [hd])) h2]
    simp only [digitsValue, List.reverse_cons, List.map_append, List.map_cons, List.map_nil, Nat.ofDigits_append,
      List.length_map, List.length_reverse, Nat.ofDigits_singleton, List.length_cons]
    ring

theorem subject_numeric {t : Text} (h : ∀ c ∈ t, IsDigit c ∨ c = 46) : subject t = (false, digitsVal 0 t) := by
  have hd : t.dropWhile isspace = t := by
    cases t with
    | nil => rfl
    | cons c t =>
      apply List.dropWhile_cons_of_neg
      have hs : ∀ c : UInt8, (isdigit c || c == 46) = ((isdigit c || c == 46) && !isspace c) := uint8_ext (by decide +kernel)
      have := hs c
      have h3 : (isdigit c || c == 46) = true := by simpa [isdigit_iff] using h c (by simp)
      rw [h3] at this
      simpa using this.symm
  unfold subject
  rw [hd]
  cases t with
  | nil => rfl
  | cons c t =>
    have h3 := h c (by simp)
    split
    · rename_i r hr
      have := (List.cons.inj hr).1
      subst this
      exact absurd h3 (by decide)
    · rename_i r hr
      have := (List.cons.inj hr).1
      subst this
      exact absurd h3 (by decide)
    · rfl

/-- What the conversion of a text computes. -/
theorem strToT_eq {z : Mem} {t : Text} (h : CStr z t) (T : IntTy) :
    strToT T z = .ok (if ∀ c ∈ t, IsDigit c ∨ c = 46 then
      castTo T (if T.signed then min (digitsVal 0 t : Int) (2 ^ 63 - 1) else min (digitsVal 0 t : Int) (2 ^ 64 - 1))
      else 0) := by
  have hn := numericLoop_ok h.text t.length 0 (by omega)
  simp only [List.drop_zero, List.take_length] at hn
  simp only [strToT, Str.createStatic, strlen_ok h.text, bind_ok, Str.isNumeric, hn]
  by_cases hc : ∀ c ∈ t, IsDigit c ∨ c = 46
  · have hall : (t.all fun x => isdigit x || x == 46) = true := by
      simp only [List.all_eq_true, Bool.or_eq_true, isdigit_iff, beq_iff_eq]
      exact hc
    simp only [hall, Bool.not_true, Bool.false_eq_true, if_false, h.text, bind_ok, if_pos hc]
    congr 2
    simp only [strtol, strtoul, subject_numeric hc, Bool.false_eq_true, if_false]
    congr 1
    · split
      · omega
      · split <;> omega
    · split <;> omega
  · have hall : (t.all fun x => isdigit x || x == 46) = false := by
      rw [Bool.eq_false_iff]
      intro hx
      simp only [List.all_eq_true, Bool.or_eq_true, isdigit_iff, beq_iff_eq] at hx
      exact hc hx
    simp only [hall, Bool.not_false, if_true, if_neg hc]

/-! ### C46 -/

/-- **C46**, **C47** The types are the signed and unsigned ones of 8, 16, 32 and 64 bits. -/
theorem C46_types (T : IntTy) : T ∈ intTys ↔ T.bits = 8 ∨ T.bits = 16 ∨ T.bits = 32 ∨ T.bits = 64 := by
  obtain ⟨s, b⟩ := T
  cases s <;> simp [intTys]

/-- **C46**, **C47** Every value of every integer type is written as its canonical decimal numeral with a terminator, the rest of
the buffer stays; a buffer that is too small terminates the program. -/
theorem C46_to_str {T : IntTy} (hT : T ∈ intTys) {v : Int} (hv : T.Has v) {buf : Mem} {n : Nat} (hn : n ≤ buf.length) :
    toStr buf n v =
      if (numeralInt v).length < n then
        .ok ((numeralInt v).map some ++ [some 0] ++ buf.drop ((numeralInt v).length + 1))
      else .exit .enforce := by
  obtain ⟨h1, h2, -⟩ := has_lt hT hv
  have hl := numeralInt_length h1 h2
  have w1 : wadd (numeralInt v).length 1 = (numeralInt v).length + 1 := wadd_eq (by omega)
  have w2 : wsub ((numeralInt v).length + 1) 1 = (numeralInt v).length := by rw [wsub_eq (by omega) (by omega)]; omega
  simp only [toStr, printD_eq h1 h2, w1, w2, beq_self_eq_true, enforce_true, bind_ok]
  by_cases h : (numeralInt v).length < n
  · have hd : decide (n ≥ (numeralInt v).length + 1) = true := by simpa using h
    simp only [hd, enforce_true, bind_ok, if_pos h]
    rw [writeN_ok (by simp; omega)]
    simp
  · have hd : decide (n ≥ (numeralInt v).length + 1) = false := by simpa using h
    simp only [hd, enforce_false, bind_exit, if_neg h]

theorem cstr_written {v : Int} (h1 : -2 ^ 63 ≤ v) (h2 : v < 2 ^ 64) (rest : Mem) :
    CStr ((numeralInt v).map some ++ [some 0] ++ rest) (numeralInt v) :=
  ⟨scanZ_eq_ok.2 ⟨⟨rest, by simp⟩, numeralInt_nz v⟩, by have := numeralInt_length h1 h2; omega⟩

/-- Converting to text and back, from a nonnegative value. -/
theorem roundtrip {T : IntTy} (hT : T ∈ intTys) {v : Int} (hv : T.Has v) (h0 : 0 ≤ v) {buf buf' : Mem} {n : Nat}
    (hn : n ≤ buf.length) (h : toStr buf n v = .ok buf') : strToT T buf' = .ok v := by
  obtain ⟨h1, h2, h3⟩ := has_lt hT hv
  rw [C46_to_str hT hv hn] at h
  split at h
  · obtain rfl := Out.ok.inj h
    rw [strToT_eq (cstr_written h1 h2 _)]
    have he : numeralInt v = numeral v.toNat := by rw [numeralInt, if_neg (by omega)]
    rw [if_pos (by rw [he]; exact fun c hc => Or.inl (numeral_digit c hc))]
    have hd : digitsVal 0 (numeralInt v) = v.toNat := by
      have := digitsVal_append (numeral v.toNat) 0 [] numeral_digit (by simp)
      rw [List.append_nil, digitsValue_numeral] at this
      rw [he, this]; omega
    rw [hd]
    congr 1
    have e1 : (if T.signed = true then min ((v.toNat : Nat) : Int) (2 ^ 63 - 1) else min ((v.toNat : Nat) : Int) (2 ^ 64 - 1)) = v := by
      split
      · have := h3 (by assumption)
        omega
      · omega
    rw [e1, castTo_of_has hT hv]
  · cases h

/-- **C46** Every value of every unsigned type survives the conversion to text and back. -/
theorem C46_round_trip {T : IntTy} (hT : T ∈ intTys) (hu : T.signed = false) {v : Int} (hv : T.Has v) {buf buf' : Mem} {n : Nat}
    (hn : n ≤ buf.length) (h : toStr buf n v = .ok buf') : strToT T buf' = .ok v :=
  roundtrip hT hv (by simp only [IntTy.Has, hu] at hv; exact hv.1) hn h

example : toStr (List.replicate 5 none) 5 255 = .ok [some 50, some 53, some 53, some 0, none] ∧
    strToT ⟨false, 8⟩ [some 50, some 53, some 53, some 0, none] = .ok 255 := by decide +kernel
example : toStr (List.replicate 3 none) 3 255 = .exit .enforce := by decide +kernel

/-! ### C47 -/

/-- **C47** (partial: nonnegative values only.  The full property, for all `v` with `T.Has v`, is false:
see `C47_negative_becomes_zero`.) -/
theorem C47_round_trip_partial {T : IntTy} (hT : T ∈ intTys) (_hs : T.signed = true) {v : Int} (hv : T.Has v) (h0 : 0 ≤ v)
    {buf buf' : Mem} {n : Nat} (hn : n ≤ buf.length) (h : toStr buf n v = .ok buf') : strToT T buf' = .ok v :=
  roundtrip hT hv h0 hn h

/-- **C47** (counterexample, for every negative value of every signed type) The text of a negative value is converted back to 0,
because the minus sign does not count as numeric. -/
theorem C47_negative_becomes_zero {T : IntTy} (hT : T ∈ intTys) {v : Int} (hv : T.Has v) (h0 : v < 0)
    {buf buf' : Mem} {n : Nat} (hn : n ≤ buf.length) (h : toStr buf n v = .ok buf') : strToT T buf' = .ok 0 := by
  obtain ⟨h1, h2, h3⟩ := has_lt hT hv
  rw [C46_to_str hT hv hn] at h
  split at h
  · obtain rfl := Out.ok.inj h
    rw [strToT_eq (cstr_written h1 h2 _), if_neg]
    intro hc
    have := hc 45 (by rw [numeralInt, if_pos h0]; simp)
    revert this; decide
  · cases h

example : toStr (List.replicate 3 none) 3 (-5) = .ok [some 45, some 53, some 0] ∧
    strToT ⟨true, 32⟩ [some 45, some 53, some 0] = .ok 0 := by decide +kernel

/-! ### C48 -/

/-- **C48** A text with a character other than a digit or a dot gives 0. -/
theorem C48_not_numeric {z : Mem} {t : Text} (h : CStr z t) {c : UInt8} (hc : c ∈ t) (hd : ¬ IsDigit c) (hp : c ≠ 46)
    (T : IntTy) : strToT T z = .ok 0 := by
  rw [strToT_eq h, if_neg]
  intro hx
  rcases hx c hc with h1 | h1
  · exact hd h1
  · exact hp h1

/-- **C48** A text of digits, possibly followed by a dot and more digits and dots, gives the number the leading digits
denote, if that is a value of the type.  (No leading digits give 0.) -/
theorem C48_value {z : Mem} {ds rest : Text} (h : CStr z (ds ++ rest)) (hd : ∀ c ∈ ds, IsDigit c)
    (hr : rest = [] ∨ ∃ r, rest = 46 :: r ∧ ∀ c ∈ r, IsDigit c ∨ c = 46) {T : IntTy} (hT : T ∈ intTys)
    (hv : T.Has (digitsValue ds)) : strToT T z = .ok (digitsValue ds : Int) := by
  obtain ⟨h1, h2, h3⟩ := has_lt hT hv
  have hn : ∀ c r, rest = c :: r → ¬ IsDigit c := by
    rintro c r rfl
    rcases hr with hr | ⟨r', hr, -⟩
    · cases hr
    · obtain rfl := (List.cons.inj hr).1
      decide
  rw [strToT_eq h, if_pos, digitsVal_append ds 0 rest hd hn]
  · congr 1
    have e1 : (if T.signed = true then min ((digitsValue ds + 10 ^ ds.length * 0 : Nat) : Int) (2 ^ 63 - 1)
        else min ((digitsValue ds + 10 ^ ds.length * 0 : Nat) : Int) (2 ^ 64 - 1)) = digitsValue ds := by
      rw [Nat.mul_zero, Nat.add_zero]
      split
      · have := h3 (by assumption)
        omega
      · omega
    rw [e1, castTo_of_has hT hv]
  · intro c hc
    rcases List.mem_append.1 hc with hc | hc
    · exact Or.inl (hd c hc)
    · rcases hr with rfl | ⟨r, rfl, hr⟩
      · cases hc
      · rcases List.mem_cons.1 hc with rfl | hc
        · exact Or.inr rfl
        · exact hr c hc

/-- **C48** What happens for digit strings beyond the range: the value saturates at the 64-bit limit and is then reduced
modulo the size of the type. -/
theorem C48_out_of_range {z : Mem} {ds : Text} (h : CStr z ds) (hd : ∀ c ∈ ds, IsDigit c) (T : IntTy) :
    strToT T z = .ok (castTo T (min (digitsValue ds : Int) (if T.signed then 2 ^ 63 - 1 else 2 ^ 64 - 1))) := by
  have := digitsVal_append ds 0 [] hd (by simp)
  rw [List.append_nil] at this
  rw [strToT_eq h, if_pos (fun c hc => Or.inl (hd c hc)), this]
  congr 2
  simp only [Nat.mul_zero, Nat.add_zero]
  split <;> rfl

/-- "12.34" is 12, "1a" is 0, "300" does not fit a byte. -/
example : strToT ⟨true, 32⟩ (zstr [49, 50, 46, 51, 52]) = .ok 12 := by decide +kernel
example : strToT ⟨true, 32⟩ (zstr [49, 97]) = .ok 0 := by decide +kernel
example : strToT ⟨true, 8⟩ (zstr [51, 48, 48]) = .ok 44 := by decide +kernel
example : strToT ⟨false, 64⟩ (zstr []) = .ok 0 := by decide +kernel

end Vita
