import Verif.Props.DateYears
/-!
# Date texts sort like dates (C134)
-/

namespace Vita
open Out DT Spec
seal wadd wsub wmul

/-! ### Specification -/

/-- The text `a` comes before `b` in the order of `strcmp`: the first difference decides, and a text comes before its continuations. -/
def TextBefore : Text → Text → Prop
  | [], [] => False
  | [], _ :: _ => True
  | _ :: _, [] => False
  | a :: s, b :: t => a < b ∨ (a = b ∧ TextBefore s t)

/-! ### Digits -/

theorem textBefore_append : ∀ {p q : Text}, p.length = q.length → ∀ s t, TextBefore (p ++ s) (q ++ t) ↔ TextBefore p q ∨ (p = q ∧ TextBefore s t)
  | [], [], _, s, t => by simp [TextBefore]
  | a :: p, b :: q, h, s, t => by
    have h : p.length = q.length := by simpa using h
    simp only [List.cons_append, TextBefore, textBefore_append h, List.cons.injEq]
    constructor
    · rintro (h | ⟨h, h1 | h1⟩)
      · exact .inl (.inl h)
      · exact .inl (.inr ⟨h, h1⟩)
      · exact .inr ⟨⟨h, h1.1⟩, h1.2⟩
    · rintro ((h | ⟨h, h'⟩) | ⟨⟨h, h'⟩, h''⟩)
      · exact .inl h
      · exact .inr ⟨h, .inl h'⟩
      · exact .inr ⟨h, .inr ⟨h', h''⟩⟩

theorem textBefore_same (p s t : Text) : TextBefore (p ++ s) (p ++ t) ↔ TextBefore s t := by
  induction p with
  | nil => rfl
  | cons a p ih => simp [TextBefore, ih]

theorem digit_lt {m n : Nat} (hm : m < 10) (hn : n < 10) : UInt8.ofNat (48 + m) < UInt8.ofNat (48 + n) ↔ m < n := by
  rw [UInt8.lt_iff_toNat_lt, UInt8.toNat_ofNat', UInt8.toNat_ofNat']
  omega

theorem digit_eq {m n : Nat} (hm : m < 10) (hn : n < 10) : UInt8.ofNat (48 + m) = UInt8.ofNat (48 + n) ↔ m = n := by
  rw [← UInt8.toNat_inj, UInt8.toNat_ofNat', UInt8.toNat_ofNat']
  omega

theorem pad_two_order {m n : Nat} (hm : m < 100) (hn : n < 100) :
    (pad 2 m).length = (pad 2 n).length ∧ (TextBefore (pad 2 m) (pad 2 n) ↔ m < n) ∧ (pad 2 m = pad 2 n ↔ m = n) := by
  rw [← two_eq_pad hm, ← two_eq_pad hn]
  refine ⟨rfl, ?_, ?_⟩
  · simp only [two, TextBefore, and_false, or_false]
    rw [digit_lt (by omega) (by omega), digit_eq (by omega) (by omega), digit_lt (by omega) (by omega)]
    omega
  · simp only [two, List.cons.injEq, and_true]
    rw [digit_eq (by omega) (by omega), digit_eq (by omega) (by omega)]
    omega

theorem pad_four_order {m n : Nat} (hm : 1000 ≤ m ∧ m ≤ 9999) (hn : 1000 ≤ n ∧ n ≤ 9999) :
    (pad 4 m).length = (pad 4 n).length ∧ (TextBefore (pad 4 m) (pad 4 n) ↔ m < n) ∧ (pad 4 m = pad 4 n ↔ m = n) := by
  rw [← four_eq_pad hm.1 (by omega), ← four_eq_pad hn.1 (by omega)]
  refine ⟨rfl, ?_, ?_⟩
  · simp only [four, TextBefore, and_false, or_false, Int.toNat_natCast]
    rw [digit_lt (by omega) (by omega), digit_eq (by omega) (by omega), digit_lt (by omega) (by omega), digit_eq (by omega) (by omega), digit_lt (by omega) (by omega),
      digit_eq (by omega) (by omega), digit_lt (by omega) (by omega)]
    omega
  · simp only [four, List.cons.injEq, and_true, Int.toNat_natCast]
    rw [digit_eq (by omega) (by omega), digit_eq (by omega) (by omega), digit_eq (by omega) (by omega), digit_eq (by omega) (by omega)]
    omega

theorem stamp_order {s1 s2 s3 : Text} {d e : VDT} {y mo da h mi s y' mo' da' h' mi' s' : Nat} (p : Printable d y mo da h mi s) (q : Printable e y' mo' da' h' mi' s') :
    TextBefore (stamp s1 s2 s3 y mo da h mi s) (stamp s1 s2 s3 y' mo' da' h' mi' s') ↔
      y < y' ∨ (y = y' ∧ (mo < mo' ∨ (mo = mo' ∧ (da < da' ∨ (da = da' ∧ (h < h' ∨ (h = h' ∧ (mi < mi' ∨ (mi = mi' ∧ s < s'))))))))) := by
  obtain ⟨-, -, -, -, -, -, py, pmo, pda, ph, pmi, ps⟩ := p
  obtain ⟨-, -, -, -, -, -, qy, qmo, qda, qh, qmi, qs⟩ := q
  obtain ⟨a1, a2, a3⟩ := pad_four_order py qy
  obtain ⟨b1, b2, b3⟩ := pad_two_order (m := mo) (n := mo') (by omega) (by omega)
  obtain ⟨c1, c2, c3⟩ := pad_two_order (m := da) (n := da') (by omega) (by omega)
  obtain ⟨d1, d2, d3⟩ := pad_two_order (m := h) (n := h') (by omega) (by omega)
  obtain ⟨e1, e2, e3⟩ := pad_two_order (m := mi) (n := mi') (by omega) (by omega)
  obtain ⟨f1, f2, f3⟩ := pad_two_order (m := s) (n := s') (by omega) (by omega)
  simp only [stamp, List.append_assoc]
  rw [textBefore_append a1, a2, a3, textBefore_same, textBefore_append b1, b2, b3, textBefore_same, textBefore_append c1, c2, c3, textBefore_same, textBefore_append d1, d2, d3,
    textBefore_same, textBefore_append e1, e2, e3, textBefore_same, f2]

/-! ### The theorems -/

/-- The date and time with these fields. -/
def civilOf (y mo da h mi s : Nat) : Civil := ⟨y, mo, da, h, mi, s⟩

theorem before_total (a b : Civil) : a.Before b ∨ a = b ∨ b.Before a := by
  obtain ⟨y, mo, da, h, mi, s⟩ := a
  obtain ⟨y', mo', da', h', mi', s'⟩ := b
  simp only [Civil.Before, Civil.mk.injEq]
  omega

theorem before_iff_secs (zn : Zone) {d e : VDT} {a b : Civil} (hd : Holds d a) (he : Holds e b) (ha : a.Valid) (hb : b.Valid) (ha0 : a.year ≠ 0) (hb0 : b.year ≠ 0) :
    a.Before b ↔ toSecs zn d < toSecs zn e := by
  refine ⟨C49_increasing zn hd he ha hb ha0 hb0, fun h => ?_⟩
  rcases before_total a b with g | rfl | g
  · exact g
  · rw [C49_to_secs zn hd ha ha0, C49_to_secs zn he hb hb0] at h; omega
  · have := C49_increasing zn he hd hb ha hb0 ha0 g; omega

theorem pad_nz : ∀ n, n < 100 → (0 : UInt8) ∉ pad 2 n := by
  intro n hn
  rw [← two_eq_pad hn]
  simp only [two, List.mem_cons, List.not_mem_nil, or_false, not_or]
  constructor <;> rw [← UInt8.toNat_inj, UInt8.toNat_ofNat'] <;> simp <;> omega

theorem pad_four_nz {n : Nat} (h : 1000 ≤ n ∧ n ≤ 9999) : (0 : UInt8) ∉ pad 4 n := by
  rw [← four_eq_pad h.1 (by omega)]
  simp only [four, List.mem_cons, List.not_mem_nil, or_false, not_or, Int.toNat_natCast]
  refine ⟨?_, ?_, ?_, ?_⟩ <;> rw [← UInt8.toNat_inj, UInt8.toNat_ofNat'] <;> simp <;> omega

theorem stamp_nz {s1 s2 s3 : Text} (h1 : 0 ∉ s1) (h2 : 0 ∉ s2) (h3 : 0 ∉ s3) {d : VDT} {y mo da h mi s : Nat} (p : Printable d y mo da h mi s) :
    0 ∉ stamp s1 s2 s3 y mo da h mi s := by
  obtain ⟨-, -, -, -, -, -, py, pmo, pda, ph, pmi, ps⟩ := p
  simp only [stamp, List.mem_append, not_or]
  refine ⟨⟨⟨⟨⟨⟨⟨⟨⟨⟨pad_four_nz py, h1⟩, pad_nz _ ?_⟩, h1⟩, pad_nz _ ?_⟩, h2⟩, pad_nz _ ?_⟩, h3⟩, pad_nz _ ?_⟩, h3⟩, pad_nz _ ?_⟩ <;> omega

theorem textBefore_irrefl : ∀ t : Text, ¬ TextBefore t t
  | [], h => h
  | a :: t, h => by
    rcases h with h | h
    · exact absurd h (by simp)
    · exact textBefore_irrefl t h.2

/-- The statement of C134 for two texts. -/
theorem stamps_sorted {s1 s2 s3 : Text} {d e : VDT} {y mo da h mi s y' mo' da' h' mi' s' : Nat} (p : Printable d y mo da h mi s) (q : Printable e y' mo' da' h' mi' s') :
    (TextBefore (stamp s1 s2 s3 y mo da h mi s) (stamp s1 s2 s3 y' mo' da' h' mi' s') ↔ (civilOf y mo da h mi s).Before (civilOf y' mo' da' h' mi' s')) ∧
    (stamp s1 s2 s3 y mo da h mi s = stamp s1 s2 s3 y' mo' da' h' mi' s' ↔ civilOf y mo da h mi s = civilOf y' mo' da' h' mi' s') ∧
    ((civilOf y mo da h mi s).Valid → (civilOf y' mo' da' h' mi' s').Valid → ∀ zn : Zone,
      (TextBefore (stamp s1 s2 s3 y mo da h mi s) (stamp s1 s2 s3 y' mo' da' h' mi' s') ↔ toSecs zn d < toSecs zn e) ∧
      (TextBefore (stamp s1 s2 s3 y mo da h mi s) (stamp s1 s2 s3 y' mo' da' h' mi' s') ↔ 0 < diffSecs zn e d)) := by
  have A : TextBefore (stamp s1 s2 s3 y mo da h mi s) (stamp s1 s2 s3 y' mo' da' h' mi' s') ↔
      (civilOf y mo da h mi s).Before (civilOf y' mo' da' h' mi' s') := by
    rw [stamp_order p q]; simp only [civilOf, Civil.Before]; omega
  have B : TextBefore (stamp s1 s2 s3 y' mo' da' h' mi' s') (stamp s1 s2 s3 y mo da h mi s) ↔
      (civilOf y' mo' da' h' mi' s').Before (civilOf y mo da h mi s) := by
    rw [stamp_order q p]; simp only [civilOf, Civil.Before]; omega
  have C : ∀ va : (civilOf y mo da h mi s).Valid, (civilOf y' mo' da' h' mi' s').Valid → ∀ zn : Zone,
      (TextBefore (stamp s1 s2 s3 y mo da h mi s) (stamp s1 s2 s3 y' mo' da' h' mi' s') ↔ toSecs zn d < toSecs zn e) := by
    intro va vb zn
    rw [A]
    have := p.hy; have := q.hy
    exact before_iff_secs zn ⟨p.year, p.month, p.mday, p.hour, p.minute, p.second⟩ ⟨q.year, q.month, q.mday, q.hour, q.minute, q.second⟩ va vb
      (by simp only [civilOf]; omega) (by simp only [civilOf]; omega)
  refine ⟨A, ⟨fun g => ?_, fun g => ?_⟩, fun va vb zn => ⟨C va vb zn, ?_⟩⟩
  · rcases before_total (civilOf y mo da h mi s) (civilOf y' mo' da' h' mi' s') with k | k | k
    · rw [← A, g] at k; exact absurd k (textBefore_irrefl _)
    · exact k
    · rw [← B, g] at k; exact absurd k (textBefore_irrefl _)
  · simp only [civilOf, Civil.mk.injEq] at g
    obtain ⟨g1, rfl, rfl, rfl, rfl, rfl⟩ := g
    rw [show y = y' by omega]
  · rw [C va vb zn, (C52_units zn e d).1]; omega

/-- **C134.** The texts that each of the three numeric formats writes for two dates of four-digit years are in the order of `strcmp` exactly as the dates are in time,
and equal exactly if the dates are. If the dates exist, the seconds and the difference in seconds agree with that order. -/
theorem C134_order {E : Env} {d e : VDT} {y mo da h mi s y' mo' da' h' mi' s' : Nat} (p : Printable d y mo da h mi s) (q : Printable e y' mo' da' h' mi' s')
    {buf buf' : Mem} {len len' : Nat} (hl : 26 ≤ len) (hb : len ≤ buf.length) (hl' : 26 ≤ len') (hb' : len' ≤ buf'.length)
    (f : Env → VDT → Mem → Nat → Out Mem) (hf : f = toText ∨ f = toTextIso ∨ f = toTextIsoExt) :
    ∃ z z' t t', f E d buf len = .ok z ∧ f E e buf' len' = .ok z' ∧ scanZ z = .ok t ∧ scanZ z' = .ok t' ∧
      (TextBefore t t' ↔ (civilOf y mo da h mi s).Before (civilOf y' mo' da' h' mi' s')) ∧ (t = t' ↔ civilOf y mo da h mi s = civilOf y' mo' da' h' mi' s') ∧
      ((civilOf y mo da h mi s).Valid → (civilOf y' mo' da' h' mi' s').Valid → ∀ zn : Zone,
        (TextBefore t t' ↔ toSecs zn d < toSecs zn e) ∧ (TextBefore t t' ↔ 0 < diffSecs zn e d)) := by
  obtain ⟨t1, t2, t3⟩ := C53_text (E := E) p hl hb
  obtain ⟨u1, u2, u3⟩ := C53_text (E := E) q hl' hb'
  rcases hf with rfl | rfl | rfl
  · exact ⟨_, _, _, _, t1, u1, scanZ_eq_ok.2 ⟨⟨_, rfl⟩, stamp_nz (by decide) (by decide) (by decide) p⟩,
      scanZ_eq_ok.2 ⟨⟨_, rfl⟩, stamp_nz (by decide) (by decide) (by decide) q⟩, stamps_sorted p q⟩
  · exact ⟨_, _, _, _, t2, u2, scanZ_eq_ok.2 ⟨⟨_, rfl⟩, stamp_nz (by decide) (by decide) (by decide) p⟩,
      scanZ_eq_ok.2 ⟨⟨_, rfl⟩, stamp_nz (by decide) (by decide) (by decide) q⟩, stamps_sorted p q⟩
  · exact ⟨_, _, _, _, t3, u3, scanZ_eq_ok.2 ⟨⟨_, rfl⟩, stamp_nz (by decide) (by decide) (by decide) p⟩,
      scanZ_eq_ok.2 ⟨⟨_, rfl⟩, stamp_nz (by decide) (by decide) (by decide) q⟩, stamps_sorted p q⟩

-- 2024-02-29 23:59:59 and 2024-03-01 00:00:00 are such dates, and the texts differ in the month.
example : Printable ⟨2024, 2, 29, 23, 59, 59, 0, 0⟩ 2024 2 29 23 59 59 ∧ Printable ⟨2024, 3, 1, 0, 0, 0, 0, 0⟩ 2024 3 1 0 0 0 ∧
    (civilOf 2024 2 29 23 59 59).Valid ∧ (civilOf 2024 3 1 0 0 0).Valid ∧ (civilOf 2024 2 29 23 59 59).Before (civilOf 2024 3 1 0 0 0) :=
  ⟨⟨rfl, rfl, rfl, rfl, rfl, rfl, by decide, by decide, by decide, by decide, by decide, by decide⟩,
   ⟨rfl, rfl, rfl, rfl, rfl, rfl, by decide, by decide, by decide, by decide, by decide, by decide⟩, by decide +kernel, by decide +kernel,
   .inr ⟨rfl, .inl (by decide)⟩⟩

theorem numeral_head_three {n : Nat} (h : 200 ≤ n ∧ n ≤ 999) : ∃ r, numeralInt n = UInt8.ofNat (48 + n / 100) :: r := by
  unfold numeralInt
  rw [if_neg (by omega), Int.toNat_natCast, numeral_big (by omega), numeral_big (show 10 ≤ n / 10 by omega), numeral_small (show n / 10 / 10 < 10 by omega),
    Nat.div_div_eq_div_mul]
  exact ⟨_, rfl⟩

theorem numeral_head_four {n : Nat} (h : 1000 ≤ n ∧ n ≤ 1999) : ∃ r, numeralInt n = 49 :: r := by
  unfold numeralInt
  rw [if_neg (by omega), Int.toNat_natCast, numeral_big (by omega), numeral_big (show 10 ≤ n / 10 by omega), numeral_big (show 10 ≤ n / 10 / 10 by omega),
    numeral_small (show n / 10 / 10 / 10 < 10 by omega), show n / 10 / 10 / 10 = 1 by omega]
  exact ⟨_, rfl⟩

theorem yearStamps_swapped {s1 s2 s3 : Text} {y y' mo da h mi s mo' da' h' mi' s' : Nat} (hy : 200 ≤ y ∧ y ≤ 999) (hy' : 1000 ≤ y' ∧ y' ≤ 1999) :
    TextBefore (yearStamp s1 s2 s3 y' mo' da' h' mi' s') (yearStamp s1 s2 s3 y mo da h mi s) := by
  obtain ⟨r, hr⟩ := numeral_head_three hy
  obtain ⟨r', hr'⟩ := numeral_head_four hy'
  simp only [yearStamp, hr, hr', List.cons_append, TextBefore]
  refine .inl ?_
  have := (digit_lt (m := 1) (n := y / 100) (by omega) (by omega)).2 (by omega)
  exact this

/-- **C134.** The years must have four digits: the year is not filled up, so every date of the years 1000 to 1999 is sorted before every date of the years 200 to 999. -/
theorem C134_short_years {E : Env} {d e : VDT} {y mo da h mi s y' mo' da' h' mi' s' : Nat} (p : AnyYear d y mo da h mi s) (q : AnyYear e y' mo' da' h' mi' s')
    (hy : 200 ≤ y ∧ y ≤ 999) (hy' : 1000 ≤ y' ∧ y' ≤ 1999)
    {buf buf' : Mem} {len len' : Nat} (hl : 26 ≤ len) (hb : len ≤ buf.length) (hl' : 26 ≤ len') (hb' : len' ≤ buf'.length)
    (f : Env → VDT → Mem → Nat → Out Mem) (hf : f = toText ∨ f = toTextIso ∨ f = toTextIsoExt) :
    (civilOf y mo da h mi s).Before (civilOf y' mo' da' h' mi' s') ∧
    ∃ t t' r r', f E d buf len = .ok (t.map some ++ some 0 :: r) ∧ f E e buf' len' = .ok (t'.map some ++ some 0 :: r') ∧ TextBefore t' t := by
  refine ⟨.inl (by simp only [civilOf]; omega), ?_⟩
  obtain ⟨t1, t2, t3⟩ := C53_text_any_year (E := E) p hl hb
  obtain ⟨u1, u2, u3⟩ := C53_text_any_year (E := E) q hl' hb'
  rcases hf with rfl | rfl | rfl
  · exact ⟨_, _, _, _, t1, u1, yearStamps_swapped hy hy'⟩
  · exact ⟨_, _, _, _, t2, u2, yearStamps_swapped hy hy'⟩
  · exact ⟨_, _, _, _, t3, u3, yearStamps_swapped hy hy'⟩

-- The year 800 and the year 1066.
example : AnyYear ⟨800, 12, 25, 12, 0, 0, 0, 0⟩ (800 : Nat) 12 25 12 0 0 ∧ AnyYear ⟨1066, 10, 14, 9, 0, 0, 0, 0⟩ (1066 : Nat) 10 14 9 0 0 :=
  ⟨⟨rfl, rfl, rfl, rfl, rfl, rfl, by decide, by decide, by decide, by decide, by decide, by decide⟩,
   ⟨rfl, rfl, rfl, rfl, rfl, rfl, by decide, by decide, by decide, by decide, by decide, by decide⟩⟩

end Vita
