import Verif.Model.VecFind
import Verif.Spec.FloatBits
import Verif.Props.Vec
/-!
# C103: searching a vector of numbers
-/

namespace Vita
open Out Spec

theorem leBytes_defined (w x : Nat) : Defined (Vec.leBytes w x) := by
  induction w generalizing x with
  | zero => intro y hy; simp [Vec.leBytes] at hy
  | succ w ih =>
    intro y hy
    simp only [Vec.leBytes, List.mem_cons] at hy
    rcases hy with rfl | hy
    · simp
    · exact ih _ y hy

theorem leBytes_inj {w x y : Nat} (hx : x < 2 ^ (8 * w)) (hy : y < 2 ^ (8 * w)) (h : Vec.leBytes w x = Vec.leBytes w y) : x = y := by
  have e := leValue_leBytes w x
  rw [h, leValue_leBytes, Nat.mod_eq_of_lt hx, Nat.mod_eq_of_lt hy] at e
  simpa using e.symm

/-- Searching for the image of `x` among the images of the members of `l`. -/
theorem firstIndex_map {β : Type} {f : α → β} (hf : ∀ a b, f a = f b → a = b) {l : List α} {x : α} {r : Int} (h : IsFirstIndex (l.map f) (f x) r) :
    IsFirstIndex l x r := by
  rcases h with ⟨h1, h2⟩ | ⟨i, h1, h2, h3⟩
  · refine .inl ⟨h1, fun hx => h2 (List.mem_map_of_mem hx)⟩
  · refine .inr ⟨i, h1, ?_, fun j hj hx => h3 j hj ?_⟩
    · rw [List.getElem?_map, Option.map_eq_some_iff] at h2
      obtain ⟨a, ha, e⟩ := h2
      rw [ha, hf _ _ e]
    · rw [List.getElem?_map, hx]; rfl

theorem firstIndex_with {p : α → Prop} {l : List α} {x : α} {r : Int} (hp : ∀ y ∈ l, p y ↔ y = x) (h : IsFirstIndex l x r) : IsFirstWith p l r := by
  rcases h with ⟨h1, h2⟩ | ⟨i, h1, h2, h3⟩
  · exact .inl ⟨h1, fun y hy hpy => h2 ((hp y hy).1 hpy ▸ hy)⟩
  · refine .inr ⟨i, h1, ⟨x, h2, (hp x (List.mem_of_getElem? h2)).2 rfl⟩, fun j hj y hy hpy => h3 j hj ?_⟩
    rw [hy, (hp y (List.mem_of_getElem? hy)).1 hpy]

/-- **C103** A typed search finds the first element with the bits of the value: with an integer type, the first element equal to it. -/
theorem C103_find_integers (v : Arr) (h : v.WF) (w : Nat) (hw : v.elsize = w) (l : List (BitVec (8 * w)))
    (hl : v.elems = l.map fun y => Vec.leBytes w y.toNat) (x : BitVec (8 * w)) :
    ∃ r, Vec.canFindT v w x = .ok r ∧ IsFirstIndex l x r := by
  obtain ⟨r, e, hr⟩ := C07_can_find v h
    (by intro y hy; rw [hl] at hy; obtain ⟨a, -, rfl⟩ := List.mem_map.1 hy; exact leBytes_defined _ _)
    (Vec.leBytes w x.toNat) (by rw [leBytes_length]; omega)
    (by rw [List.take_of_length_le (by rw [leBytes_length]; omega)]; exact leBytes_defined _ _)
  refine ⟨r, e, ?_⟩
  rw [List.take_of_length_le (by rw [leBytes_length]; omega), hl] at hr
  exact firstIndex_map (f := fun y : BitVec (8 * w) => Vec.leBytes w y.toNat)
    (fun a b hab => BitVec.eq_of_toNat_eq (leBytes_inj a.isLt b.isLt hab)) hr

theorem steps_lt_succ (fw n : Nat) : steps fw n < steps fw (n + 1) := by
  unfold steps
  have hp : 0 < 2 ^ fw := Nat.two_pow_pos fw
  by_cases h : (n + 1) % 2 ^ fw = 0
  · have h1 : n % 2 ^ fw = 2 ^ fw - 1 := by
      have h3 := Nat.div_add_mod n (2 ^ fw)
      have h4 := Nat.div_add_mod (n + 1) (2 ^ fw)
      have h5 := Nat.mod_lt n hp
      obtain ⟨k, hk⟩ := Nat.dvd_of_mod_eq_zero h
      by_contra hne
      have h6 : n % 2 ^ fw + 1 < 2 ^ fw := by omega
      have : (n + 1) % 2 ^ fw = n % 2 ^ fw + 1 := by
        conv_lhs => rw [← h3]
        rw [Nat.add_assoc, Nat.mul_add_mod, Nat.mod_eq_of_lt h6]
      omega
    have h2 : (n + 1) / 2 ^ fw = n / 2 ^ fw + 1 := by
      have h3 := Nat.div_add_mod n (2 ^ fw)
      have : n + 1 = 2 ^ fw * (n / 2 ^ fw + 1) := by rw [Nat.mul_add]; omega
      rw [this, Nat.mul_div_cancel_left _ hp]
    rw [h, h1, h2, if_neg (c := n / 2 ^ fw + 1 = 0) (Nat.succ_ne_zero _)]
    by_cases hz : n / 2 ^ fw = 0
    · rw [if_pos hz, hz]
      have h3 := Nat.div_add_mod n (2 ^ fw)
      rw [hz, h1] at h3
      simp only [Nat.zero_add, Nat.sub_self, Nat.pow_zero, Nat.mul_one, Nat.add_zero]; omega
    · rw [if_neg hz]
      obtain ⟨e, he⟩ : ∃ e, n / 2 ^ fw = e + 1 := Nat.exists_eq_succ_of_ne_zero hz
      rw [he, Nat.add_sub_cancel, Nat.add_sub_cancel, Nat.pow_succ]
      have : 0 < 2 ^ e := Nat.two_pow_pos e
      calc (2 ^ fw + (2 ^ fw - 1)) * 2 ^ e < (2 ^ fw * 2) * 2 ^ e := Nat.mul_lt_mul_of_pos_right (by omega) this
        _ = (2 ^ fw + 0) * (2 ^ e * 2) := by ring
  · have h3 := Nat.div_add_mod n (2 ^ fw)
    have h5 := Nat.mod_lt n hp
    have h6 : n % 2 ^ fw + 1 < 2 ^ fw := by
      by_contra hne
      apply h
      have : n + 1 = 2 ^ fw * (n / 2 ^ fw + 1) := by rw [Nat.mul_add]; omega
      rw [this, Nat.mul_mod_right]
    have h1 : (n + 1) % 2 ^ fw = n % 2 ^ fw + 1 := by
      conv_lhs => rw [← h3]
      rw [Nat.add_assoc, Nat.mul_add_mod, Nat.mod_eq_of_lt h6]
    have h2 : (n + 1) / 2 ^ fw = n / 2 ^ fw := by
      conv_lhs => rw [← h3]
      rw [Nat.add_assoc, Nat.mul_add_div hp, Nat.div_eq_of_lt h6, Nat.add_zero]
    rw [h1, h2]
    split
    · omega
    · exact Nat.mul_lt_mul_of_pos_right (by omega) (Nat.two_pow_pos _)

theorem steps_inj {fw a b : Nat} (h : steps fw a = steps fw b) : a = b :=
  (strictMono_nat_of_lt_succ (steps_lt_succ fw)).injective h

theorem steps_zero (fw : Nat) : steps fw 0 = 0 := by simp [steps]

theorem steps_pos {fw n : Nat} (h : 0 < n) : 0 < steps fw n := by
  have := (strictMono_nat_of_lt_succ (steps_lt_succ fw)) h
  rw [steps_zero] at this; exact this

/-- A pattern is made of its sign and the rest. -/
theorem pattern_split {k b : Nat} (hb : b < 2 ^ (k + 1)) : b = 2 ^ k * (b / 2 ^ k % 2) + b % 2 ^ k := by
  have h1 : b / 2 ^ k < 2 := by rw [Nat.div_lt_iff_lt_mul (Nat.two_pow_pos k)]; rw [Nat.pow_succ] at hb; omega
  rw [Nat.mod_eq_of_lt h1]
  exact (Nat.div_add_mod b (2 ^ k)).symm

/-- Two patterns are equal as numbers only if they are the same pattern, or both zero. -/
theorem float_eq_pattern {ew fw a b : Nat} (ha : a < 2 ^ (ew + fw + 1)) (hb : b < 2 ^ (ew + fw + 1))
    (h : (floatValue ew fw a).Eq (floatValue ew fw b)) : a = b ∨ (floatValue ew fw a = .num 0 ∧ floatValue ew fw b = .num 0) := by
  have key : ∀ s t : Nat, s < 2 → t < 2 → (decide (s = 1) = decide (t = 1)) → s = t := by
    intro s t hs ht e
    have := decide_eq_decide.1 e
    omega
  have hs1 : a / 2 ^ (ew + fw) % 2 < 2 := Nat.mod_lt _ (by omega)
  have hs2 : b / 2 ^ (ew + fw) % 2 < 2 := Nat.mod_lt _ (by omega)
  have pa := pattern_split ha
  have pb := pattern_split hb
  unfold floatValue at h ⊢
  dsimp only at h ⊢
  generalize a / 2 ^ (ew + fw) % 2 = sa at *
  generalize b / 2 ^ (ew + fw) % 2 = sb at *
  generalize hna : a % 2 ^ (ew + fw) = na at *
  generalize hnb : b % 2 ^ (ew + fw) = nb at *
  have hc : (0 : ℚ) < 2 ^ (2 - 2 ^ (ew - 1) - fw : ℤ) := zpow_pos (by norm_num) _
  generalize (2 : ℚ) ^ (2 - 2 ^ (ew - 1) - fw : ℤ) = c at *
  by_cases h1 : na / 2 ^ fw = 2 ^ ew - 1 <;> by_cases h2 : nb / 2 ^ fw = 2 ^ ew - 1
  · rw [if_pos h1, if_pos h2] at h
    by_cases h3 : na % 2 ^ fw = 0 <;> by_cases h4 : nb % 2 ^ fw = 0
    · rw [if_pos h3, if_pos h4] at h
      have e := key sa sb hs1 hs2 h
      left
      rw [pa, pb, e]
      have f1 := Nat.div_add_mod na (2 ^ fw)
      have f2 := Nat.div_add_mod nb (2 ^ fw)
      rw [h1, h3] at f1
      rw [h2, h4] at f2
      omega
    · rw [if_pos h3, if_neg h4] at h; exact h.elim
    · rw [if_neg h3, if_pos h4] at h; exact h.elim
    · rw [if_neg h3, if_neg h4] at h; exact h.elim
  · rw [if_pos h1, if_neg h2] at h
    split at h <;> exact h.elim
  · rw [if_neg h1, if_pos h2] at h
    by_cases h4 : nb % 2 ^ fw = 0
    · rw [if_pos h4] at h; exact h.elim
    · rw [if_neg h4] at h; exact h.elim
  · rw [if_neg h1, if_neg h2] at h ⊢
    have h : (if decide (sa = 1) = true then (-1 : ℚ) else 1) * (steps fw na * c) = (if decide (sb = 1) = true then (-1 : ℚ) else 1) * (steps fw nb * c) := h
    have abs1 : (steps fw na : ℚ) = steps fw nb := by
      have e := congrArg abs h
      have sg : ∀ s : Nat, |(if decide (s = 1) = true then (-1 : ℚ) else 1)| = 1 := by intro s; split <;> simp
      rw [abs_mul (if decide (sa = 1) = true then (-1 : ℚ) else 1), abs_mul (if decide (sb = 1) = true then (-1 : ℚ) else 1), sg, sg, one_mul, one_mul, abs_of_nonneg (by positivity), abs_of_nonneg (by positivity)] at e
      exact mul_right_cancel₀ hc.ne' e
    have en : na = nb := steps_inj (by exact_mod_cast abs1)
    by_cases hz : na = 0
    · right
      rw [← en, hz, steps_zero]
      simp
    · left
      have hpos : (0 : ℚ) < steps fw na * c := by
        have := steps_pos (fw := fw) (n := na) (by omega)
        positivity
      rw [← abs1] at h
      have e : sa = sb := by
        have es := mul_right_cancel₀ hpos.ne' h
        have d1 : sa = 0 ∨ sa = 1 := by omega
        have d2 : sb = 0 ∨ sb = 1 := by omega
        rcases d1 with rfl | rfl <;> rcases d2 with rfl | rfl <;> norm_num at es <;> rfl
      rw [pa, pb, e, en]

/-- Every pattern but those of NaN is equal to itself. -/
theorem float_eq_refl {ew fw a : Nat} (h : floatValue ew fw a ≠ .nan) : (floatValue ew fw a).Eq (floatValue ew fw a) := by
  cases e : floatValue ew fw a with
  | num q => rfl
  | inf s => rfl
  | nan => exact absurd e h

/-- **C103** Searching for a `float` (`w = 4`, 8 bits of exponent, 23 of fraction) or a `double` (`w = 8`, 11 and 52) finds the first element equal to it as
`==` compares them, if the value sought is not a NaN and not zero, or is a zero and all zeros in the vector have its sign.

Full claim: without the condition on NaN and zeros.  It is false, see `C103_find_zero_missed` and `C103_find_nan`. -/
theorem C103_find_floats_partial (v : Arr) (h : v.WF) (w ew fw : Nat) (hf : 8 * w = ew + fw + 1) (hw : v.elsize = w) (l : List (BitVec (8 * w)))
    (hl : v.elems = l.map fun y => Vec.leBytes w y.toNat) (x : BitVec (8 * w))
    (hn : floatValue ew fw x.toNat ≠ .nan)
    (hz : floatValue ew fw x.toNat = .num 0 → ∀ y ∈ l, floatValue ew fw y.toNat = .num 0 → y = x) :
    ∃ r, Vec.canFindT v w x = .ok r ∧ IsFirstWith (fun y => (floatValue ew fw y.toNat).Eq (floatValue ew fw x.toNat)) l r := by
  obtain ⟨r, e, hr⟩ := C103_find_integers v h w hw l hl x
  refine ⟨r, e, firstIndex_with (fun y hy => ⟨fun hq => ?_, fun hq => ?_⟩) hr⟩
  · rcases float_eq_pattern (hf ▸ y.isLt) (hf ▸ x.isLt) hq with h1 | ⟨h1, h2⟩
    · exact BitVec.eq_of_toNat_eq h1
    · exact hz h2 y hy h1
  · rw [hq]; exact float_eq_refl hn

/-- **C103** Zero is not found among zeros of the other sign, although `==` holds for every element. -/
theorem C103_find_zero_missed (v : Arr) (h : v.WF) (w ew fw : Nat) (hf : 8 * w = ew + fw + 1) (he : 0 < ew) (hw : v.elsize = w) (l : List (BitVec (8 * w)))
    (hl : v.elems = l.map fun y => Vec.leBytes w y.toNat) (hm : ∀ y ∈ l, y.toNat = 2 ^ (ew + fw)) :
    Vec.canFindT v w 0#(8 * w) = .ok (-1) ∧
      ∀ y ∈ l, (floatValue ew fw y.toNat).Eq (floatValue ew fw (0#(8 * w)).toNat) := by
  have hp : 0 < 2 ^ (ew + fw) := Nat.two_pow_pos _
  have he2 : 2 ≤ 2 ^ ew := by
    calc 2 = 2 ^ 1 := rfl
      _ ≤ 2 ^ ew := Nat.pow_le_pow_right (by omega) he
  have v0 : ∀ b, b % 2 ^ (ew + fw) = 0 → floatValue ew fw b = .num 0 := by
    intro b hb
    unfold floatValue
    dsimp only
    rw [hb, Nat.zero_div, if_neg (by omega), steps_zero]
    simp
  constructor
  · obtain ⟨r, e, hr⟩ := C103_find_integers v h w hw l hl 0#(8 * w)
    rcases hr with ⟨rfl, -⟩ | ⟨i, -, h2, -⟩
    · exact e
    · have := hm _ (List.mem_of_getElem? h2)
      simp at this
      omega
  · intro y hy
    rw [v0 _ (by rw [hm y hy, Nat.mod_self]), v0 _ (by simp)]
    rfl

/-- **C103** A NaN is found where an element has its bits, although `==` holds for no element. -/
theorem C103_find_nan (v : Arr) (h : v.WF) (w ew fw : Nat) (hw : v.elsize = w) (l : List (BitVec (8 * w)))
    (hl : v.elems = l.map fun y => Vec.leBytes w y.toNat) (x : BitVec (8 * w)) (hx : floatValue ew fw x.toNat = .nan) :
    (∃ r, Vec.canFindT v w x = .ok r ∧ IsFirstIndex l x r) ∧ ∀ y : BitVec (8 * w), ¬ (floatValue ew fw y.toNat).Eq (floatValue ew fw x.toNat) := by
  refine ⟨C103_find_integers v h w hw l hl x, fun y hq => ?_⟩
  rw [hx] at hq
  cases e : floatValue ew fw y.toNat <;> rw [e] at hq <;> exact hq

theorem realBytes_inj {x y : BitVec 80} {p q : BitVec 48} (h : Vec.realBytes x p = Vec.realBytes y q) : x = y ∧ p = q := by
  obtain ⟨h1, h2⟩ := List.append_inj h (by rw [leBytes_length, leBytes_length])
  exact ⟨BitVec.eq_of_toNat_eq (leBytes_inj x.isLt y.isLt h1), BitVec.eq_of_toNat_eq (leBytes_inj p.isLt q.isLt h2)⟩

/-- **C103** The search for a `long double` compares the padding as well: an element is found only if its padding is that of the parameter. -/
theorem C103_find_real (v : Arr) (h : v.WF) (hw : v.elsize = 16) (l : List (BitVec 80 × BitVec 48))
    (hl : v.elems = l.map fun y => Vec.realBytes y.1 y.2) (x : BitVec 80) (pad : BitVec 48) :
    ∃ r, Vec.canFindR v x pad = .ok r ∧ IsFirstIndex l (x, pad) r := by
  have df : ∀ (x : BitVec 80) (p : BitVec 48), Defined (Vec.realBytes x p) := by
    intro x p y hy
    rcases List.mem_append.1 hy with hy | hy
    · exact leBytes_defined _ _ y hy
    · exact leBytes_defined _ _ y hy
  have hlen : (Vec.realBytes x pad).length = 16 := by simp [Vec.realBytes, leBytes_length]
  obtain ⟨r, e, hr⟩ := C07_can_find v h
    (by intro y hy; rw [hl] at hy; obtain ⟨a, -, rfl⟩ := List.mem_map.1 hy; exact df _ _)
    (Vec.realBytes x pad) (by omega) (by rw [List.take_of_length_le (by omega)]; exact df _ _)
  refine ⟨r, e, ?_⟩
  rw [List.take_of_length_le (by omega), hl] at hr
  exact firstIndex_map (f := fun y : BitVec 80 × BitVec 48 => Vec.realBytes y.1 y.2) (x := (x, pad))
    (fun a b hab => Prod.ext (realBytes_inj hab).1 (realBytes_inj hab).2) hr

/-- **C103** So a `long double` may be missed in a vector that holds nothing but it. -/
theorem C103_find_real_missed (v : Arr) (h : v.WF) (hw : v.elsize = 16) (l : List (BitVec 80 × BitVec 48))
    (hl : v.elems = l.map fun y => Vec.realBytes y.1 y.2) (x : BitVec 80) (pad : BitVec 48) (hx : ∀ y ∈ l, y.1 = x ∧ y.2 ≠ pad) :
    Vec.canFindR v x pad = .ok (-1) := by
  obtain ⟨r, e, hr⟩ := C103_find_real v h hw l hl x pad
  rcases hr with ⟨rfl, -⟩ | ⟨i, -, h2, -⟩
  · exact e
  · exact absurd rfl (hx _ (List.mem_of_getElem? h2)).2

/-! ### Concrete cases -/

/-- A vector of `float`: 1.5, -0.0, NaN, -0.0. -/
def exF : Arr := ⟨4, 4, 4, 0, false, [0x3FC00000, 0x80000000, 0x7FC00000, 0x80000000].flatMap (Vec.leBytes 4)⟩

example : exF.WF := by decide +kernel
example : exF.elems = [0x3FC00000#32, 0x80000000#32, 0x7FC00000#32, 0x80000000#32].map fun y => Vec.leBytes 4 y.toNat := by decide +kernel
example : floatValue 8 23 0x3FC00000 = .num (3 / 2) := by
  norm_num [floatValue, steps]
example : floatValue 11 52 0xC008000000000000 = .num (-3) := by
  norm_num [floatValue, steps]
  rw [show (6755399441055744 : ℚ) = 3 * 2 ^ 51 by norm_num, mul_assoc (3 : ℚ), ← pow_add, mul_assoc, mul_inv_cancel₀ (pow_ne_zero _ (by norm_num)), mul_one]
example : floatValue 8 23 0x7FC00000 = .nan ∧ floatValue 8 23 0xFF800000 = .inf true ∧ floatValue 8 23 0x80000000 = .num 0 := by
  norm_num [floatValue, steps]
/-- 1.5 is element 0, -0.0 is element 1, 0.0 is not found, and the NaN is element 2. -/
example : Vec.canFindT exF 4 0x3FC00000 = .ok 0 ∧ Vec.canFindT exF 4 0x80000000 = .ok 1 ∧ Vec.canFindT exF 4 0 = .ok (-1) ∧
    Vec.canFindT exF 4 0x7FC00000 = .ok 2 := by decide +kernel
/-- A vector with the `long double` 1.0 and padding 7. -/
example : Vec.canFindR ⟨1, 1, 16, 0, false, Vec.realBytes 0x3FFF8000000000000000 7⟩ 0x3FFF8000000000000000 7 = .ok 0 ∧
    Vec.canFindR ⟨1, 1, 16, 0, false, Vec.realBytes 0x3FFF8000000000000000 7⟩ 0x3FFF8000000000000000 8 = .ok (-1) := by decide +kernel

end Vita
