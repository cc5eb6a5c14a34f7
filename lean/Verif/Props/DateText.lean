import Verif.Props.DateTime
import Verif.Props.Conv
import Verif.Props.StrEdit
/-!
# Properties C53, C54, C72: dates as text
-/

namespace Vita
open Out DT Spec

/-! ### Specification -/

/-- A numeral filled up with zeros on the left. -/
def pad (w n : Nat) : Text := List.replicate (w - (numeral n).length) 48 ++ numeral n

/-- Date and time of day in digits with the given separators: in the date, between date and time, in the time. -/
def stamp (s1 s2 s3 : Text) (y mo d h mi s : Nat) : Text :=
  pad 4 y ++ s1 ++ pad 2 mo ++ s1 ++ pad 2 d ++ s2 ++ pad 2 h ++ s3 ++ pad 2 mi ++ s3 ++ pad 2 s

example : stamp [45] [32] [58] 2024 3 1 12 5 9 = "2024-03-01 12:05:09".toUTF8.data.toList := by decide +kernel

/-! ### Digits -/

/-- Four digits of a number below 10000. -/
def four (x : Int) : List UInt8 :=
  [UInt8.ofNat (48 + x.toNat / 1000), UInt8.ofNat (48 + x.toNat / 100 % 10), UInt8.ofNat (48 + x.toNat / 10 % 10),
   UInt8.ofNat (48 + x.toNat % 10)]

theorem two_eq_pad {n : Nat} (h : n < 100) : two n = pad 2 n := by
  unfold two pad
  by_cases h1 : n < 10
  · rw [numeral_small h1]
    simp [Nat.div_eq_of_lt h1, Nat.mod_eq_of_lt h1]
  · rw [numeral_big (by omega), numeral_small (by omega)]
    simp

theorem four_eq_pad {n : Nat} (h0 : 1000 ≤ n) (h : n < 10000) : four n = pad 4 n := by
  unfold four pad
  rw [numeral_big (by omega), numeral_big (show 10 ≤ n / 10 by omega), numeral_big (show 10 ≤ n / 10 / 10 by omega),
    numeral_small (show n / 10 / 10 / 10 < 10 by omega)]
  simp [Nat.div_div_eq_div_mul]

theorem printD_four {n : Nat} (h0 : 1000 ≤ n) (h : n < 10000) : Conv.printD (n : Int) = four n := by
  rw [printD_eq (by omega) (by omega), four_eq_pad h0 h, numeralInt, if_neg (show ¬ (n : Int) < 0 by omega), Int.toNat_natCast]
  unfold pad
  rw [numeral_big (by omega), numeral_big (show 10 ≤ n / 10 by omega), numeral_big (show 10 ≤ n / 10 / 10 by omega),
    numeral_small (show n / 10 / 10 / 10 < 10 by omega)]
  rfl

theorem isDigit_of {k : Nat} (h : k < 10) : isDigit (UInt8.ofNat (48 + k)) = true := by
  interval_cases k <;> decide

theorem isDigit_iff {c : UInt8} : isDigit c = true ↔ IsDigit c := by
  unfold isDigit IsDigit
  simp [UInt8.le_iff_toNat_le]

/-! ### sscanf -/

theorem isWs_digit {c : UInt8} (h : isDigit c = true) : isWs c = false := by
  unfold isDigit at h; unfold isWs
  simp only [Bool.and_eq_true, decide_eq_true_eq, UInt8.le_iff_toNat_le] at h
  have : (48 : UInt8).toNat = 48 := rfl
  simp only [Bool.or_eq_false_iff, beq_eq_false_iff_ne, Bool.and_eq_false_iff, decide_eq_false_iff_not, UInt8.le_iff_toNat_le]
  refine ⟨?_, Or.inr ?_⟩
  · rintro rfl; simp at h
  · have : (13 : UInt8).toNat = 13 := rfl
    omega

theorem scanInt_digit {c : UInt8} {t : List UInt8} (h : isDigit c = true) (w : Nat) :
    scanInt (w + 1) (c :: t) = some (numVal (c :: (takeDigits w t).1), (takeDigits w t).2) := by
  have h2 : c ≠ 45 := by rintro rfl; exact absurd h (by decide)
  have h3 : c ≠ 43 := by rintro rfl; exact absurd h (by decide)
  unfold scanInt
  rw [List.dropWhile_cons_of_neg (by simp [isWs_digit h])]
  simp [scanSign, h2, h3, takeDigits, h]

theorem scan2 {a b : UInt8} {t : List UInt8} (ha : isDigit a = true) (hb : isDigit b = true) :
    scanInt 2 (a :: b :: t) = some (numVal [a, b], t) := by
  rw [scanInt_digit ha]
  simp [takeDigits, hb]

theorem scan4 {a b c d : UInt8} {t : List UInt8} (ha : isDigit a = true) (hb : isDigit b = true) (hc : isDigit c = true)
    (hd : isDigit d = true) : scanInt 4 (a :: b :: c :: d :: t) = some (numVal [a, b, c, d], t) := by
  rw [scanInt_digit ha]
  simp [takeDigits, hb, hc, hd]

theorem numVal_two {n : Nat} (h : n < 100) : numVal (two n) = n := by
  unfold two numVal
  simp only [List.foldl_cons, List.foldl_nil, Int.toNat_natCast]
  rw [digitChar_toNat (by omega), digitChar_toNat (by omega)]
  omega

theorem numVal_four {n : Nat} (h : n < 10000) : numVal (four n) = n := by
  unfold four numVal
  simp only [List.foldl_cons, List.foldl_nil, Int.toNat_natCast]
  rw [digitChar_toNat (by omega), digitChar_toNat (by omega), digitChar_toNat (by omega), digitChar_toNat (by omega)]
  omega

/-- Fields of a datetime whose numeric text has the usual width. -/
structure Printable (d : VDT) (y mo da h mi s : Nat) : Prop where
  year : d.year = y
  month : d.month = mo
  mday : d.mday = da
  hour : d.hour = h
  minute : d.minute = mi
  second : d.second = s
  hy : 1000 ≤ y ∧ y ≤ 9999
  hmo : 1 ≤ mo ∧ mo ≤ 12
  hda : 1 ≤ da ∧ da ≤ 31
  hh : h ≤ 23
  hmi : mi ≤ 59
  hs : s ≤ 60

theorem printable_fmt {d : VDT} {y mo da h mi s : Nat} (p : Printable d y mo da h mi s) :
    fmtPiece (vdtToTm d) .Y = .ok (four y) ∧ fmtPiece (vdtToTm d) .m = .ok (two mo) ∧ fmtPiece (vdtToTm d) .d = .ok (two da) ∧
    fmtPiece (vdtToTm d) .H = .ok (two h) ∧ fmtPiece (vdtToTm d) .M = .ok (two mi) ∧ fmtPiece (vdtToTm d) .S = .ok (two s) := by
  obtain ⟨h1, h2, h3, h4, h5, h6, b1, b2, b3, b4, b5, b6⟩ := p
  simp only [fmtPiece, vdtToTm, minYear, h1, h2, h3, h4, h5, h6]
  refine ⟨?_, ?_, ?_, ?_, ?_, ?_⟩
  · rw [if_pos (by omega), show (y : Int) - 1900 + 1900 = y by omega, printD_four b1.1 (by omega)]
  · rw [if_pos (by omega)]; congr 2; omega
  · rw [if_pos (by omega)]
  · rw [if_pos (by omega)]
  · rw [if_pos (by omega)]
  · rw [if_pos (by omega)]

/-- Writing the text into the buffer. -/
theorem toTextFmt_ok {E : Env} {d : VDT} {buf : Mem} {len : Nat} {f : List Fmt} {t : Text} (hf : fmtAll (vdtToTm d) f = .ok t)
    (ht : t.length < 26) (hl : 26 ≤ len) (hb : len ≤ buf.length) :
    toTextFmt E d buf len f = .ok (t.map some ++ some 0 :: buf.drop (t.length + 1)) := by
  unfold toTextFmt strftime
  simp only [decide_eq_true (show len ≥ 26 from hl), dassert_true, bind_ok, hf]
  rw [if_pos (by omega), writeN_ok (by simp; omega)]
  simp only [bind_ok, List.take_zero, List.nil_append, List.length_append, List.length_map, List.length_cons, List.length_nil, Nat.zero_add]
  rw [writeN_mid (t.map some) [some 0] _ [some 0] (by simp) rfl]
  simp

theorem fmtAll_text {d : VDT} {y mo da h mi s : Nat} (p : Printable d y mo da h mi s) :
    fmtAll (vdtToTm d) fmtText = .ok (stamp [45] [32] [58] y mo da h mi s) ∧
    fmtAll (vdtToTm d) fmtIso = .ok (stamp [] [84] [] y mo da h mi s) ∧
    fmtAll (vdtToTm d) fmtIsoExt = .ok (stamp [45] [84] [58] y mo da h mi s) := by
  obtain ⟨e1, e2, e3, e4, e5, e6⟩ := printable_fmt p
  have l : ∀ c, fmtPiece (vdtToTm d) (.lit c) = .ok [c] := fun c => rfl
  unfold stamp
  rw [← four_eq_pad p.hy.1 (by have := p.hy.2; omega), ← two_eq_pad (by have := p.hmo; omega), ← two_eq_pad (by have := p.hda; omega),
    ← two_eq_pad (by have := p.hh; omega), ← two_eq_pad (by have := p.hmi; omega), ← two_eq_pad (by have := p.hs; omega)]
  refine ⟨?_, ?_, ?_⟩
  · simp only [fmtText, fmtAll, e1, e2, e3, e4, e5, e6, l, bind_ok, List.append_assoc, List.append_nil]
  · simp only [fmtIso, fmtAll, e1, e2, e3, e4, e5, e6, l, bind_ok, List.append_assoc, List.append_nil, List.nil_append]
  · simp only [fmtIsoExt, fmtAll, e1, e2, e3, e4, e5, e6, l, bind_ok, List.append_assoc, List.append_nil]

theorem two_digits {n : Nat} (h : n < 100) : ∃ a b, two n = [a, b] ∧ isDigit a = true ∧ isDigit b = true :=
  ⟨_, _, rfl, isDigit_of (by simp; omega), isDigit_of (by simp; omega)⟩

theorem four_digits {n : Nat} (h : n < 10000) : ∃ a b c d, four n = [a, b, c, d] ∧ isDigit a = true ∧ isDigit b = true ∧
    isDigit c = true ∧ isDigit d = true :=
  ⟨_, _, _, _, rfl, isDigit_of (by simp; omega), isDigit_of (by simp; omega), isDigit_of (by simp; omega), isDigit_of (by simp; omega)⟩

theorem digit_ne_zero {c : UInt8} (h : isDigit c = true) : c ≠ 0 := by
  rintro rfl; exact absurd h (by decide)

/-- Memory that begins with a stamp of the simple format is parsed to its fields. -/
theorem fromText_stamp {y mo da h mi s : Nat} (hy : 1000 ≤ y ∧ y ≤ 9999) (hmo : 1 ≤ mo ∧ mo ≤ 12) (hda : 1 ≤ da ∧ da ≤ 31) (hh : h ≤ 23)
    (hmi : mi ≤ 59) (hs : s ≤ 60) (rest : Mem) :
    fromText ((stamp [45] [32] [58] y mo da h mi s).map some ++ some 0 :: rest) = .ok ⟨y, mo, da, h, mi, s, 7, 1⟩ ∧
    fromTextIso ((stamp [] [84] [] y mo da h mi s).map some ++ some 0 :: rest) = .ok ⟨y, mo, da, h, mi, s, 7, 1⟩ ∧
    fromTextIsoExt ((stamp [45] [84] [58] y mo da h mi s).map some ++ some 0 :: rest) = .ok ⟨y, mo, da, h, mi, s, 7, 1⟩ := by
  unfold stamp
  rw [← four_eq_pad hy.1 (by omega), ← two_eq_pad (show mo < 100 by omega), ← two_eq_pad (show da < 100 by omega),
    ← two_eq_pad (show h < 100 by omega), ← two_eq_pad (show mi < 100 by omega), ← two_eq_pad (show s < 100 by omega)]
  have v1 := numVal_four (show y < 10000 by omega)
  have v2 := numVal_two (show mo < 100 by omega)
  have v3 := numVal_two (show da < 100 by omega)
  have v4 := numVal_two (show h < 100 by omega)
  have v5 := numVal_two (show mi < 100 by omega)
  have v6 := numVal_two (show s < 100 by omega)
  obtain ⟨a0, a1, a2, a3, e0, d0, d1, d2, d3⟩ := four_digits (show y < 10000 by omega)
  obtain ⟨b0, b1, e1, d4, d5⟩ := two_digits (show mo < 100 by omega)
  obtain ⟨c0, c1, e2, d6, d7⟩ := two_digits (show da < 100 by omega)
  obtain ⟨g0, g1, e3, d8, d9⟩ := two_digits (show h < 100 by omega)
  obtain ⟨i0, i1, e4, d10, d11⟩ := two_digits (show mi < 100 by omega)
  obtain ⟨j0, j1, e5, d12, d13⟩ := two_digits (show s < 100 by omega)
  rw [e0] at v1 ⊢
  rw [e1] at v2 ⊢
  rw [e2] at v3 ⊢
  rw [e3] at v4 ⊢
  rw [e4] at v5 ⊢
  rw [e5] at v6 ⊢
  have fin : tmToVdt ⟨(y : Int) - minYear, (mo : Int) - 1, da, h, mi, s, 0, 0⟩ = ⟨y, mo, da, h, mi, s, 7, 1⟩ := by
    simp only [tmToVdt, minYear, VDT.mk.injEq]
    refine ⟨?_, ?_, ?_, ?_, ?_, ?_, by decide, by decide⟩
    · rw [i16_id (by unfold Is16; omega)]; omega
    · rw [i16_id (by unfold Is16; omega)]; omega
    · rw [i16_id (by unfold Is16; omega)]
    · rw [i16_id (by unfold Is16; omega)]
    · rw [i16_id (by unfold Is16; omega)]
    · rw [i16_id (by unfold Is16; omega)]
  have al : isAlpha 89 = true ∧ isAlpha 77 = true ∧ isAlpha 68 = true ∧ isAlpha 72 = true ∧ isAlpha 83 = true ∧ isAlpha 45 = false ∧
      isAlpha 32 = false ∧ isAlpha 58 = false ∧ isAlpha 0 = false := by decide
  obtain ⟨l1, l2, l3, l4, l5, l6, l7, l8, l9⟩ := al
  refine ⟨?_, ?_, ?_⟩
  · unfold fromText
    have hval : isValidText (([a0, a1, a2, a3] ++ [45] ++ [b0, b1] ++ [45] ++ [c0, c1] ++ [32] ++ [g0, g1] ++ [58] ++ [i0, i1] ++ [58] ++
        [j0, j1]).map some ++ some 0 :: rest) = .ok true := by
      simp [isValidText, vText, validLoop, getc, l1, l2, l3, l4, l5, l6, l7, l8, l9, d0, d1, d2, d3, d4, d5, d6, d7, d8, d9, d10, d11, d12, d13]
    have hz : scanZ (([a0, a1, a2, a3] ++ [45] ++ [b0, b1] ++ [45] ++ [c0, c1] ++ [32] ++ [g0, g1] ++ [58] ++ [i0, i1] ++ [58] ++
        [j0, j1]).map some ++ some 0 :: rest) = .ok ([a0, a1, a2, a3] ++ [45] ++ [b0, b1] ++ [45] ++ [c0, c1] ++ [32] ++ [g0, g1] ++ [58] ++
        [i0, i1] ++ [58] ++ [j0, j1]) := by
      rw [scanZ_eq_ok]
      refine ⟨⟨rest, rfl⟩, ?_⟩
      simp [(digit_ne_zero d0).symm, (digit_ne_zero d1).symm, (digit_ne_zero d2).symm, (digit_ne_zero d3).symm, (digit_ne_zero d4).symm,
        (digit_ne_zero d5).symm, (digit_ne_zero d6).symm, (digit_ne_zero d7).symm, (digit_ne_zero d8).symm, (digit_ne_zero d9).symm,
        (digit_ne_zero d10).symm, (digit_ne_zero d11).symm, (digit_ne_zero d12).symm, (digit_ne_zero d13).symm]
    have hw : isWs 32 = true := by decide
    rw [hval, hz]
    simp only [bind_ok, enforce_true, fromTextFmt, sText, List.cons_append, List.nil_append, DT.scan, scan4 d0 d1 d2 d3, scan2 d4 d5, scan2 d6 d7,
      scan2 d8 d9, scan2 d10 d11, scan2 d12 d13, if_true, List.dropWhile_cons_of_pos hw,
      List.dropWhile_cons_of_neg (show ¬ isWs g0 = true by simp [isWs_digit d8]), v1, v2, v3, v4, v5, v6]
    rw [← fin]
    simp
  · unfold fromTextIso
    have hval : isValidIso (([a0, a1, a2, a3] ++ [] ++ [b0, b1] ++ [] ++ [c0, c1] ++ [84] ++ [g0, g1] ++ [] ++ [i0, i1] ++ [] ++
        [j0, j1]).map some ++ some 0 :: rest) = .ok true := by
      simp [isValidIso, vIso, validLoop, getc, l1, l2, l3, l4, l5, l9, d0, d1, d2, d3, d4, d5, d6, d7, d8, d9, d10, d11, d12, d13]
    have hz : scanZ (([a0, a1, a2, a3] ++ [] ++ [b0, b1] ++ [] ++ [c0, c1] ++ [84] ++ [g0, g1] ++ [] ++ [i0, i1] ++ [] ++
        [j0, j1]).map some ++ some 0 :: rest) = .ok ([a0, a1, a2, a3] ++ [] ++ [b0, b1] ++ [] ++ [c0, c1] ++ [84] ++ [g0, g1] ++ [] ++
        [i0, i1] ++ [] ++ [j0, j1]) := by
      rw [scanZ_eq_ok]
      refine ⟨⟨rest, rfl⟩, ?_⟩
      simp [(digit_ne_zero d0).symm, (digit_ne_zero d1).symm, (digit_ne_zero d2).symm, (digit_ne_zero d3).symm, (digit_ne_zero d4).symm,
        (digit_ne_zero d5).symm, (digit_ne_zero d6).symm, (digit_ne_zero d7).symm, (digit_ne_zero d8).symm, (digit_ne_zero d9).symm,
        (digit_ne_zero d10).symm, (digit_ne_zero d11).symm, (digit_ne_zero d12).symm, (digit_ne_zero d13).symm]
    rw [hval, hz]
    simp only [bind_ok, enforce_true, fromTextFmt, sIso, List.append_nil, List.cons_append, List.nil_append, DT.scan, scan4 d0 d1 d2 d3, scan2 d4 d5,
      scan2 d6 d7, scan2 d8 d9, scan2 d10 d11, scan2 d12 d13, if_true, v1, v2, v3, v4, v5, v6]
    rw [← fin]
    simp
  · unfold fromTextIsoExt
    have hval : isValidIsoExt (([a0, a1, a2, a3] ++ [45] ++ [b0, b1] ++ [45] ++ [c0, c1] ++ [84] ++ [g0, g1] ++ [58] ++ [i0, i1] ++ [58] ++
        [j0, j1]).map some ++ some 0 :: rest) = .ok true := by
      simp [isValidIsoExt, vIsoExt, validLoop, getc, l1, l2, l3, l4, l6, l8, l9, d0, d1, d2, d3, d4, d5, d6, d7, d8, d9, d10, d11, d12, d13]
    have hz : scanZ (([a0, a1, a2, a3] ++ [45] ++ [b0, b1] ++ [45] ++ [c0, c1] ++ [84] ++ [g0, g1] ++ [58] ++ [i0, i1] ++ [58] ++
        [j0, j1]).map some ++ some 0 :: rest) = .ok ([a0, a1, a2, a3] ++ [45] ++ [b0, b1] ++ [45] ++ [c0, c1] ++ [84] ++ [g0, g1] ++ [58] ++
        [i0, i1] ++ [58] ++ [j0, j1]) := by
      rw [scanZ_eq_ok]
      refine ⟨⟨rest, rfl⟩, ?_⟩
      simp [(digit_ne_zero d0).symm, (digit_ne_zero d1).symm, (digit_ne_zero d2).symm, (digit_ne_zero d3).symm, (digit_ne_zero d4).symm,
        (digit_ne_zero d5).symm, (digit_ne_zero d6).symm, (digit_ne_zero d7).symm, (digit_ne_zero d8).symm, (digit_ne_zero d9).symm,
        (digit_ne_zero d10).symm, (digit_ne_zero d11).symm, (digit_ne_zero d12).symm, (digit_ne_zero d13).symm]
    rw [hval, hz]
    simp only [bind_ok, enforce_true, fromTextFmt, sIsoExt, List.cons_append, List.nil_append, DT.scan, scan4 d0 d1 d2 d3, scan2 d4 d5, scan2 d6 d7,
      scan2 d8 d9, scan2 d10 d11, scan2 d12 d13, if_true, v1, v2, v3, v4, v5, v6]
    rw [← fin]
    simp

theorem stamp_length {y mo da h mi s : Nat} (hy : 1000 ≤ y ∧ y ≤ 9999) (hmo : mo ≤ 12) (hda : da ≤ 31) (hh : h ≤ 23)
    (hmi : mi ≤ 59) (hs : s ≤ 60) (a b c : Text) : (stamp a b c y mo da h mi s).length = 14 + 2 * a.length + b.length + 2 * c.length := by
  unfold stamp
  rw [← four_eq_pad hy.1 (by omega), ← two_eq_pad (show mo < 100 by omega), ← two_eq_pad (show da < 100 by omega),
    ← two_eq_pad (show h < 100 by omega), ← two_eq_pad (show mi < 100 by omega), ← two_eq_pad (show s < 100 by omega)]
  simp [four, two]
  omega

/-! ### C53 -/

/-- **C53.** The texts written: date and time in digits, zero filled, with the separators of the format; terminated, inside the
buffer, the rest of the buffer unchanged. -/
theorem C53_text {E : Env} {d : VDT} {y mo da h mi s : Nat} (p : Printable d y mo da h mi s) {buf : Mem} {len : Nat} (hl : 26 ≤ len)
    (hb : len ≤ buf.length) :
    toText E d buf len = .ok ((stamp [45] [32] [58] y mo da h mi s).map some ++ some 0 :: buf.drop 20) ∧
    toTextIso E d buf len = .ok ((stamp [] [84] [] y mo da h mi s).map some ++ some 0 :: buf.drop 16) ∧
    toTextIsoExt E d buf len = .ok ((stamp [45] [84] [58] y mo da h mi s).map some ++ some 0 :: buf.drop 20) := by
  obtain ⟨f1, f2, f3⟩ := fmtAll_text p
  have hlen := fun a b c => stamp_length p.hy p.hmo.2 p.hda.2 p.hh p.hmi p.hs a b c
  refine ⟨?_, ?_, ?_⟩
  · unfold toText
    rw [toTextFmt_ok f1 (by rw [hlen]; simp) hl hb, hlen]; rfl
  · unfold toTextIso
    rw [toTextFmt_ok f2 (by rw [hlen]; simp) hl hb, hlen]; rfl
  · unfold toTextIsoExt
    rw [toTextFmt_ok f3 (by rw [hlen]; simp) hl hb, hlen]; rfl

theorem toTextFmt_short {E : Env} {d : VDT} {buf : Mem} {len : Nat} {f : List Fmt} {t : Text} (hf : fmtAll (vdtToTm d) f = .ok t)
    (hl : len < 26) (h0 : 0 < len) (hb : len ≤ buf.length) :
    (E.debug = true → toTextFmt E d buf len f = .exit .dbgAssert) ∧
    (E.debug = false → (t.length < len → toTextFmt E d buf len f = .ok (t.map some ++ some 0 :: buf.drop (t.length + 1))) ∧
      (len ≤ t.length → ∃ rest, toTextFmt E d buf len f = .ok (some 0 :: rest) ∧ rest.drop (len - 1) = buf.drop len)) := by
  constructor
  · intro hd
    unfold toTextFmt
    rw [decide_eq_false (show ¬ len ≥ 26 by omega), dassert_false hd, bind_exit]
  intro hd
  constructor
  · intro ht
    unfold toTextFmt strftime
    simp only [dassert_release hd, bind_ok, hf]
    rw [if_pos (by omega), writeN_ok (by simp; omega)]
    simp only [bind_ok, List.take_zero, List.nil_append, List.length_append, List.length_map, List.length_cons, List.length_nil, Nat.zero_add]
    rw [writeN_mid (t.map some) [some 0] _ [some 0] (by simp) rfl]
    simp
  · intro ht
    obtain ⟨n, rfl⟩ : ∃ n, len = n + 1 := ⟨len - 1, by omega⟩
    unfold toTextFmt strftime
    simp only [dassert_release hd, bind_ok, hf]
    rw [if_neg (by omega), if_pos hb, bind_ok]
    dsimp only
    rw [writeN_ok (by simp; omega)]
    refine ⟨_, rfl, ?_⟩
    simp [List.replicate_succ]

/-- **C53, short buffers.** A buffer of less than 26 bytes is rejected in debug builds.  In release builds it is as good as a long one if text and terminator fit,
and else gets the empty text; nothing is written behind it. -/
theorem C53_short_buffer {E : Env} {d : VDT} {y mo da h mi s : Nat} (p : Printable d y mo da h mi s) {buf : Mem} {len : Nat} (hl : len < 26)
    (h0 : 0 < len) (hb : len ≤ buf.length) :
    (E.debug = true → toText E d buf len = .exit .dbgAssert ∧ toTextIso E d buf len = .exit .dbgAssert ∧ toTextIsoExt E d buf len = .exit .dbgAssert) ∧
    (E.debug = false →
      (20 ≤ len → toText E d buf len = .ok ((stamp [45] [32] [58] y mo da h mi s).map some ++ some 0 :: buf.drop 20) ∧
        toTextIsoExt E d buf len = .ok ((stamp [45] [84] [58] y mo da h mi s).map some ++ some 0 :: buf.drop 20)) ∧
      (len < 20 → (∃ rest, toText E d buf len = .ok (some 0 :: rest) ∧ rest.drop (len - 1) = buf.drop len) ∧
        ∃ rest, toTextIsoExt E d buf len = .ok (some 0 :: rest) ∧ rest.drop (len - 1) = buf.drop len) ∧
      (16 ≤ len → toTextIso E d buf len = .ok ((stamp [] [84] [] y mo da h mi s).map some ++ some 0 :: buf.drop 16)) ∧
      (len < 16 → ∃ rest, toTextIso E d buf len = .ok (some 0 :: rest) ∧ rest.drop (len - 1) = buf.drop len)) := by
  obtain ⟨f1, f2, f3⟩ := fmtAll_text p
  have hlen := fun a b c => stamp_length p.hy p.hmo.2 p.hda.2 p.hh p.hmi p.hs a b c
  obtain ⟨a1, b1⟩ := toTextFmt_short (E := E) f1 hl h0 hb
  obtain ⟨a2, b2⟩ := toTextFmt_short (E := E) f2 hl h0 hb
  obtain ⟨a3, b3⟩ := toTextFmt_short (E := E) f3 hl h0 hb
  rw [hlen] at b1 b2 b3
  simp only [List.length_cons, List.length_nil] at b1 b2 b3
  unfold toText toTextIso toTextIsoExt
  exact ⟨fun h => ⟨a1 h, a2 h, a3 h⟩, fun h => ⟨fun g => ⟨(b1 h).1 (by omega), (b3 h).1 (by omega)⟩, fun g => ⟨(b1 h).2 (by omega), (b3 h).2 (by omega)⟩,
    fun g => (b2 h).1 (by omega), fun g => (b2 h).2 (by omega)⟩⟩

/-- Example: nineteen bytes are one too few for the long formats. -/
example : toText { exE with debug := false } ⟨2026, 11, 16, 9, 20, 5, 1, 320⟩ (List.replicate 19 none) 19 = .ok (some 0 :: List.replicate 18 none) ∧
    toTextIso { exE with debug := false } ⟨2026, 11, 16, 9, 20, 5, 1, 320⟩ (List.replicate 19 none) 19 =
      .ok ("20261116T092005".toUTF8.data.toList.map some ++ some 0 :: List.replicate 3 none) := by decide +kernel

/-- **C53.** Writing a datetime as text and parsing the text gives the same date and time of day, in each of the three formats. -/
theorem C53_round_trip {E : Env} {d : VDT} {y mo da h mi s : Nat} (p : Printable d y mo da h mi s) {buf : Mem} {len : Nat} (hl : 26 ≤ len)
    (hb : len ≤ buf.length) :
    (toText E d buf len >>= fromText) = .ok { d with wday := 7, yday := 1 } ∧
    (toTextIso E d buf len >>= fromTextIso) = .ok { d with wday := 7, yday := 1 } ∧
    (toTextIsoExt E d buf len >>= fromTextIsoExt) = .ok { d with wday := 7, yday := 1 } := by
  obtain ⟨t1, t2, t3⟩ := C53_text (E := E) p hl hb
  rw [t1, t2, t3]
  simp only [bind_ok]
  rw [p.year, p.month, p.mday, p.hour, p.minute, p.second]
  exact ⟨(fromText_stamp p.hy p.hmo p.hda p.hh p.hmi p.hs _).1, (fromText_stamp p.hy p.hmo p.hda p.hh p.hmi p.hs _).2.1,
    (fromText_stamp p.hy p.hmo p.hda p.hh p.hmi p.hs _).2.2⟩

/-- Every valid civil time with a four-digit year can be printed. -/
theorem printable_of_valid {d : VDT} {c : Civil} (h : Holds d c) (hv : c.Valid) (hy : 1000 ≤ c.year ∧ c.year ≤ 9999) :
    Printable d c.year.toNat c.month c.day c.hour c.minute c.second := by
  have hml := monthLength_bounds c.year c.month
  obtain ⟨h1, h2, h3, h4, h5, h6⟩ := h
  obtain ⟨v2, v3, v4, v5, v6, v7, v8⟩ := hv
  exact ⟨by omega, h2, h3, h4, h5, h6, ⟨by omega, by omega⟩, ⟨v2, v3⟩, ⟨v4, by omega⟩, by omega, by omega, by omega⟩

/-- Example: the leap second of 2016 in a buffer of 26 bytes. -/
example : Printable ⟨2016, 12, 31, 23, 59, 60, 6, 366⟩ 2016 12 31 23 59 60 ∧
    (toText exE ⟨2016, 12, 31, 23, 59, 60, 6, 366⟩ (List.replicate 26 none) 26 >>= fromText) =
      .ok ⟨2016, 12, 31, 23, 59, 60, 7, 1⟩ :=
  ⟨⟨rfl, rfl, rfl, rfl, rfl, rfl, by omega, by omega, by omega, by omega, by omega, by omega⟩, by decide +kernel⟩

/-! ### C54 -/

/-- Is position checked against the format? -/
def Checked (f : UInt8) : Prop := f ≠ 84 ∧ isAlpha f = true

theorem validLoop_true (z : Mem) : ∀ (fs : List UInt8) (i : Nat), validLoop z fs i = .ok true ↔
    ∀ j, (h : j < fs.length) → Checked fs[j] → ∃ c, z[i + j]? = some (some c) ∧ isDigit c = true
  | [], i => by simp [validLoop]
  | f :: fs, i => by
    have ih := validLoop_true z fs (i + 1)
    have shift : (∀ j, (h : j < (f :: fs).length) → Checked (f :: fs)[j] → ∃ c, z[i + j]? = some (some c) ∧ isDigit c = true) ↔
        (Checked f → ∃ c, z[i]? = some (some c) ∧ isDigit c = true) ∧
        ∀ j, (h : j < fs.length) → Checked fs[j] → ∃ c, z[i + 1 + j]? = some (some c) ∧ isDigit c = true := by
      constructor
      · intro H
        refine ⟨fun hc => H 0 (by simp) hc, fun j hj hc => ?_⟩
        have := H (j + 1) (by simpa using hj) (by simpa using hc)
        rwa [show i + (j + 1) = i + 1 + j by omega] at this
      · rintro ⟨H0, H⟩ j hj hc
        cases j with
        | zero => exact H0 hc
        | succ j =>
          have := H j (by simpa using hj) (by simpa using hc)
          rwa [show i + 1 + j = i + (j + 1) by omega] at this
    rw [shift, validLoop]
    by_cases hc : f ≠ 84 ∧ isAlpha f = true
    · rw [if_pos hc]
      unfold getc
      cases hz : z[i]? with
      | none => simp [Checked, hc]
      | some b =>
        cases b with
        | none => simp [Checked, hc]
        | some c =>
          simp only [bind_ok]
          by_cases hd : isDigit c = true
          · simp only [hd, Bool.not_true, Bool.false_eq_true, if_false, ih]
            constructor
            · exact fun h => ⟨fun _ => ⟨c, rfl, hd⟩, h⟩
            · exact fun h => h.2
          · simp only [hd]
            simp [Checked, hc, hd]
    · rw [if_neg hc, ih]
      constructor
      · exact fun h => ⟨fun h' => absurd h' hc, h⟩
      · exact fun h => h.2

/-- The loop reads only initialised memory if every checked position is readable or comes behind a rejected one. -/
theorem validLoop_safe (z : Mem) : ∀ (fs : List UInt8) (i : Nat),
    (∀ j, (h : j < fs.length) → Checked fs[j] → (∃ c, z[i + j]? = some (some c)) ∨
      ∃ k, ∃ hk : k < j, Checked (fs[k]'(by omega)) ∧ ∃ c, z[i + k]? = some (some c) ∧ isDigit c = false) →
    ∃ b, validLoop z fs i = .ok b
  | [], i, _ => ⟨true, rfl⟩
  | f :: fs, i, H => by
    rw [validLoop]
    by_cases hc : f ≠ 84 ∧ isAlpha f = true
    · rw [if_pos hc]
      rcases H 0 (by simp) hc with ⟨c, h0⟩ | ⟨k, hk, -⟩
      swap
      · omega
      simp only [Nat.add_zero] at h0
      unfold getc
      simp only [h0, bind_ok]
      by_cases hd : isDigit c = true
      · simp only [hd, Bool.not_true, Bool.false_eq_true, if_false]
        refine validLoop_safe z fs (i + 1) (fun j hj hcj => ?_)
        rcases H (j + 1) (by simpa using hj) (by simpa using hcj) with ⟨c', h'⟩ | ⟨k, hk, hck, c', h1, h2⟩
        · exact Or.inl ⟨c', by rwa [show i + 1 + j = i + (j + 1) by omega]⟩
        · cases k with
          | zero =>
            simp only [Nat.add_zero, h0, Option.some.injEq] at h1
            subst h1
            rw [hd] at h2
            exact absurd h2 (by simp)
          | succ k => exact Or.inr ⟨k, by omega, by simpa using hck, c', by rwa [show i + 1 + k = i + (k + 1) by omega], h2⟩
      · exact ⟨false, by simp [hd]⟩
    · rw [if_neg hc]
      refine validLoop_safe z fs (i + 1) (fun j hj hcj => ?_)
      rcases H (j + 1) (by simpa using hj) (by simpa using hcj) with ⟨c', h'⟩ | ⟨k, hk, hck, c', h1, h2⟩
      · exact Or.inl ⟨c', by rwa [show i + 1 + j = i + (j + 1) by omega]⟩
      · cases k with
        | zero => exact absurd hck hc
        | succ k => exact Or.inr ⟨k, by omega, by simpa using hck, c', by rwa [show i + 1 + k = i + (k + 1) by omega], h2⟩

instance (f : UInt8) : Decidable (Checked f) := inferInstanceAs (Decidable (_ ∧ _))

/-- The positions of the digits of "YYYY-MM-DD HH:MM:SS". -/
def digitPos : List Nat := [0, 1, 2, 3, 5, 6, 8, 9, 11, 12, 14, 15, 17, 18]
/-- The positions of the digits of "YYYYMMDDTHHMMSS". -/
def digitPosIso : List Nat := [0, 1, 2, 3, 4, 5, 6, 7, 9, 10, 11, 12, 13, 14]

theorem checked_text : ∀ j, (h : j < vText.length) → (Checked vText[j] ↔ j ∈ digitPos) := by decide
theorem checked_isoExt : ∀ j, (h : j < vIsoExt.length) → (Checked vIsoExt[j] ↔ j ∈ digitPos) := by decide
theorem checked_iso : ∀ j, (h : j < vIso.length) → (Checked vIso[j] ↔ j ∈ digitPosIso) := by decide

theorem valid_iff {z : Mem} {fs : List UInt8} {pos : List Nat} (hp : ∀ j, (h : j < fs.length) → (Checked fs[j] ↔ j ∈ pos))
    (hl : ∀ j ∈ pos, j < fs.length) :
    validLoop z fs 0 = .ok true ↔ ∀ i ∈ pos, ∃ c, z[i]? = some (some c) ∧ IsDigit c := by
  rw [validLoop_true]
  simp only [Nat.zero_add, isDigit_iff]
  constructor
  · intro H i hi
    exact H i (hl i hi) ((hp i (hl i hi)).2 hi)
  · intro H j hj hc
    exact H j ((hp j hj).1 hc)

/-- **C54, what the code does.** A text is accepted exactly if there are digits at the digit positions; separators and the end
of the text are not looked at.  Full claim: accepted exactly if in addition the separators are in place and the text ends behind the last
digit. -/
theorem C54_accepted_iff_partial (z : Mem) :
    (isValidText z = .ok true ↔ ∀ i ∈ digitPos, ∃ c, z[i]? = some (some c) ∧ IsDigit c) ∧
    (isValidIso z = .ok true ↔ ∀ i ∈ digitPosIso, ∃ c, z[i]? = some (some c) ∧ IsDigit c) ∧
    (isValidIsoExt z = .ok true ↔ ∀ i ∈ digitPos, ∃ c, z[i]? = some (some c) ∧ IsDigit c) :=
  ⟨valid_iff checked_text (by decide), valid_iff checked_iso (by decide), valid_iff checked_isoExt (by decide)⟩

theorem valid_safe {z : Mem} {t : Text} (hz : CStr z t) {fs : List UInt8} {pos : List Nat}
    (hp : ∀ j, (h : j < fs.length) → (Checked fs[j] ↔ j ∈ pos)) (hn : t.length ∈ pos ∨ ∀ j ∈ pos, j < t.length) :
    ∃ b, validLoop z fs 0 = .ok b := by
  obtain ⟨⟨rest, rfl⟩, -⟩ := scanZ_eq_ok.1 hz.text
  apply validLoop_safe
  intro j hj hc
  simp only [Nat.zero_add]
  by_cases h1 : j ≤ t.length
  · left
    rcases Nat.lt_or_eq_of_le h1 with h1 | h1
    · exact ⟨t[j], by rw [List.getElem?_append_left (by simpa using h1)]; simp [h1]⟩
    · exact ⟨0, by rw [h1]; simp⟩
  · right
    rcases hn with hn | hn
    · refine ⟨t.length, by omega, (hp _ (by omega)).2 hn, 0, by simp, by decide⟩
    · exact absurd (hn j ((hp j hj).1 hc)) (by omega)

/-- **C54.** Nothing behind the terminator is read, unless the text ends exactly at a separator. -/
theorem C54_no_overread_partial {z : Mem} {t : Text} (hz : CStr z t) :
    (t.length ∉ [4, 7, 10, 13, 16] → (∃ b, isValidText z = .ok b) ∧ ∃ b, isValidIsoExt z = .ok b) ∧
    (t.length ≠ 8 → ∃ b, isValidIso z = .ok b) := by
  have key : ∀ n, n ∉ [4, 7, 10, 13, 16] → n ∈ digitPos ∨ ∀ j ∈ digitPos, j < n := by
    intro n hn
    by_cases h : n < 19
    · left
      have H : ∀ n < 19, n ∉ [4, 7, 10, 13, 16] → n ∈ digitPos := by decide
      exact H n h hn
    · right
      intro j hj
      have : ∀ j ∈ digitPos, j < 19 := by decide
      have := this j hj
      omega
  have key2 : ∀ n, n ≠ 8 → n ∈ digitPosIso ∨ ∀ j ∈ digitPosIso, j < n := by
    intro n hn
    by_cases h : n < 15
    · left
      have H : ∀ n < 15, n ≠ 8 → n ∈ digitPosIso := by decide
      exact H n h hn
    · right
      intro j hj
      have : ∀ j ∈ digitPosIso, j < 15 := by decide
      have := this j hj
      omega
  exact ⟨fun h => ⟨valid_safe hz checked_text (key _ h), valid_safe hz checked_isoExt (key _ h)⟩, fun h => valid_safe hz checked_iso (key2 _ h)⟩

/-- **C54.** Texts of the exact format are accepted, whatever follows in memory. -/
theorem C54_exact_accepted {y mo da h mi s : Nat} (hy : 1000 ≤ y ∧ y ≤ 9999) (hmo : 1 ≤ mo ∧ mo ≤ 12) (hda : 1 ≤ da ∧ da ≤ 31) (hh : h ≤ 23)
    (hmi : mi ≤ 59) (hs : s ≤ 60) (rest : Mem) :
    isValidText ((stamp [45] [32] [58] y mo da h mi s).map some ++ some 0 :: rest) = .ok true ∧
    isValidIso ((stamp [] [84] [] y mo da h mi s).map some ++ some 0 :: rest) = .ok true ∧
    isValidIsoExt ((stamp [45] [84] [58] y mo da h mi s).map some ++ some 0 :: rest) = .ok true := by
  obtain ⟨h1, h2, h3⟩ := fromText_stamp hy hmo hda hh hmi hs rest
  refine ⟨?_, ?_, ?_⟩
  · unfold fromText at h1
    rw [bind_eq_ok] at h1
    obtain ⟨v, hv, h1⟩ := h1
    cases v
    · simp at h1
    · exact hv
  · unfold fromTextIso at h2
    rw [bind_eq_ok] at h2
    obtain ⟨v, hv, h2⟩ := h2
    cases v
    · simp at h2
    · exact hv
  · unfold fromTextIsoExt at h3
    rw [bind_eq_ok] at h3
    obtain ⟨v, hv, h3⟩ := h3
    cases v
    · simp at h3
    · exact hv

/-- A text as a memory block of exactly its size. -/
def ztext (s : String) : Mem := s.toUTF8.data.toList.map some ++ [some 0]

theorem validLoop_congr {z z' : Mem} : ∀ (fs : List UInt8) (i : Nat), (∀ j, (h : j < fs.length) → Checked fs[j] → z[i + j]? = z'[i + j]?) →
    validLoop z fs i = validLoop z' fs i
  | [], _, _ => rfl
  | f :: fs, i, H => by
    have ih := validLoop_congr (z := z) (z' := z') fs (i + 1) (fun j hj hc => by
      have := H (j + 1) (by simpa using hj) (by simpa using hc)
      rwa [show i + (j + 1) = i + 1 + j by omega] at this)
    simp only [validLoop, ih]
    by_cases hc : f ≠ 84 ∧ isAlpha f = true
    · have := H 0 (by simp) hc
      simp only [Nat.add_zero] at this
      unfold getc
      rw [this]
    · rw [if_neg hc, if_neg hc]

theorem valid_congr {z z' : Mem} {fs : List UInt8} {pos : List Nat} (hp : ∀ j, (h : j < fs.length) → (Checked fs[j] ↔ j ∈ pos))
    (h : ∀ i ∈ pos, z[i]? = z'[i]?) : validLoop z fs 0 = validLoop z' fs 0 :=
  validLoop_congr fs 0 (fun j hj hc => by simpa using h j ((hp j hj).1 hc))

/-- **C54, disagreement.** Whatever is at the separator positions and behind the last digit makes no difference: two blocks of memory with
the same bytes at the digit positions are judged alike, so wrong separators and trailing characters are accepted. -/
theorem C54_separators_ignored (z z' : Mem) :
    ((∀ i ∈ digitPos, z[i]? = z'[i]?) → isValidText z = isValidText z' ∧ isValidIsoExt z = isValidIsoExt z') ∧
    ((∀ i ∈ digitPosIso, z[i]? = z'[i]?) → isValidIso z = isValidIso z') :=
  ⟨fun h => ⟨valid_congr checked_text h, valid_congr checked_isoExt h⟩, fun h => valid_congr checked_iso h⟩

example : isValidText (ztext "2024x03x01x12x05x09") = .ok true ∧ isValidText (ztext "2024-03-01 12:05:09 nonsense") = .ok true ∧
    isValidIso (ztext "20240301-120509") = .ok true := by decide +kernel

/-- The loop leaves the memory if it ends in front of a checked position and digits come before. -/
theorem validLoop_ub {z : Mem} : ∀ (fs : List UInt8) (i j : Nat) (hj : j < fs.length), Checked fs[j] → z[i + j]? = none →
    (∀ k, (hk : k < j) → Checked (fs[k]'(by omega)) → ∃ c, z[i + k]? = some (some c) ∧ isDigit c = true) → validLoop z fs i = .ub
  | [], _, _, hj, _, _, _ => absurd hj (by simp)
  | f :: fs, i, 0, _, hc, hn, _ => by
    have hc' : f ≠ 84 ∧ isAlpha f = true := hc
    rw [validLoop, if_pos hc']
    simp only [Nat.add_zero] at hn
    simp [getc, hn]
  | f :: fs, i, j + 1, hj, hc, hn, H => by
    have ih := validLoop_ub fs (i + 1) j (by simpa using hj) (by simpa using hc) (by rwa [show i + 1 + j = i + (j + 1) by omega])
      (fun k hk hck => by
        have := H (k + 1) (by omega) (by simpa using hck)
        rwa [show i + (k + 1) = i + 1 + k by omega] at this)
    rw [validLoop, ih]
    by_cases hf : f ≠ 84 ∧ isAlpha f = true
    · rw [if_pos hf]
      obtain ⟨c, h1, h2⟩ := H 0 (by omega) hf
      simp only [Nat.add_zero] at h1
      simp [getc, h1, h2]
    · rw [if_neg hf]

theorem overread {t : Text} {fs : List UInt8} {pos : List Nat} (hp : ∀ j, (h : j < fs.length) → (Checked fs[j] ↔ j ∈ pos))
    (h1 : t.length ∉ pos) (h2 : t.length + 1 ∈ pos) (h3 : t.length + 1 < fs.length) (hd : ∀ i ∈ pos, ∀ c, t[i]? = some c → IsDigit c) :
    validLoop (t.map some ++ [some 0]) fs 0 = .ub := by
  refine validLoop_ub fs 0 (t.length + 1) h3 ((hp _ h3).2 h2) (by simp) (fun k hk hc => ?_)
  have hm := (hp k (by omega)).1 hc
  have hk' : k < t.length := by
    rcases Nat.lt_or_ge k t.length with h | h
    · exact h
    · exact absurd hm (by rwa [show k = t.length by omega])
  refine ⟨t[k], ?_, isDigit_iff.2 (hd k hm _ (by simp [hk']))⟩
  rw [Nat.zero_add, List.getElem?_append_left (by simpa using hk')]
  simp [hk']

/-- **C54, disagreement.** Every text that ends exactly at a separator position and has digits at the digit positions is read beyond its
terminator; if the memory ends there, this is undefined. -/
theorem C54_overread (t : Text) :
    (t.length ∈ [4, 7, 10, 13, 16] → (∀ i ∈ digitPos, ∀ c, t[i]? = some c → IsDigit c) →
      isValidText (t.map some ++ [some 0]) = .ub ∧ isValidIsoExt (t.map some ++ [some 0]) = .ub) ∧
    (t.length = 8 → (∀ i ∈ digitPosIso, ∀ c, t[i]? = some c → IsDigit c) → isValidIso (t.map some ++ [some 0]) = .ub) := by
  constructor
  · intro h hd
    have : ∀ n ∈ [4, 7, 10, 13, 16], n ∉ digitPos ∧ n + 1 ∈ digitPos ∧ n + 1 < 20 := by decide
    obtain ⟨a, b, c⟩ := this _ h
    exact ⟨overread checked_text a b c hd, overread checked_isoExt a b c hd⟩
  · intro h hd
    exact overread checked_iso (by rw [h]; decide) (by rw [h]; decide) (by rw [h]; decide) hd

example : isValidText (ztext "2024") = .ub ∧ isValidText (ztext "2024-03-01") = .ub ∧ isValidIso (ztext "20240301") = .ub := by
  decide +kernel

/-- Example: texts that end at a digit position are rejected without reading on. -/
example : CStr (ztext "202") [50, 48, 50] ∧ isValidText (ztext "202") = .ok false ∧ isValidText (ztext "2024-3-1") = .ok false :=
  ⟨⟨by decide +kernel, by decide +kernel⟩, by decide +kernel, by decide +kernel⟩

/-! ### C72 -/

/-- English abbreviations of the week days, Monday first. -/
def weekDays : List String := ["Mon", "Tue", "Wed", "Thu", "Fri", "Sat", "Sun"]
/-- English abbreviations of the months. -/
def months : List String := ["Jan", "Feb", "Mar", "Apr", "May", "Jun", "Jul", "Aug", "Sep", "Oct", "Nov", "Dec"]
/-- The characters of a string. -/
def chars (s : String) : Text := s.toUTF8.data.toList

/-- "Www Mmm dd hh:mm:ss yyyy", the day of the month without a leading zero. -/
def prettyStamp (y mo da h mi s wd : Nat) : Text :=
  chars (weekDays.getD (wd - 1) "") ++ [32] ++ chars (months.getD (mo - 1) "") ++ [32] ++ (if da < 10 then [32] else []) ++ numeral da ++ [32] ++
  pad 2 h ++ [58] ++ pad 2 mi ++ [58] ++ pad 2 s ++ [32] ++ numeral y

example : prettyStamp 2026 11 6 9 5 0 5 = chars "Fri Nov  6 09:05:00 2026" := by decide +kernel

theorem wdayName_eq : ∀ w : Nat, 1 ≤ w → w ≤ 7 → wdayName (if (w : Int) = 7 then (0 : Int) else (w : Int)) = chars (weekDays.getD (w - 1) "") := by
  intro w h1 h2
  interval_cases w <;> decide +kernel

theorem monName_eq : ∀ m : Nat, 1 ≤ m → m ≤ 12 → monName ((m : Int) - 1) = chars (months.getD (m - 1) "") := by
  intro w h1 h2
  interval_cases w <;> decide +kernel

theorem weekDays_len : ∀ w, 1 ≤ w → w ≤ 7 → (chars (weekDays.getD (w - 1) "")).length = 3 := by
  intro w h1 h2
  interval_cases w <;> decide +kernel

theorem months_len : ∀ w, 1 ≤ w → w ≤ 12 → (chars (months.getD (w - 1) "")).length = 3 := by
  intro w h1 h2
  interval_cases w <;> decide +kernel

/-- The buffer after `asctime`: the text is cut behind its 24 characters. -/
theorem pretty_core {u : Text} (hu : u.length = 24) (h8 : u[8]? ≠ some 48) {buf : Mem} {len : Nat} (hl : 26 ≤ len) (hb : len ≤ buf.length) :
    ∃ rest : Mem, (do
      let b ← writeN buf 0 ((u ++ [10]).map some ++ [some 0])
      let c ← getc b 8
      let b ← if c = 48 then putc b 8 32 else .ok b
      let b ← putc b (len - 1) 0
      let c ← getc b 25
      if c = 10 then putc b 25 0 else putc b 24 0 : Out Mem) = .ok (u.map some ++ some 0 :: rest) ∧ rest.length = buf.length - 25 := by
  have hlen : ((u ++ [10]).map some ++ [some (0 : UInt8)]).length = 26 := by simp [hu]
  rw [writeN_ok (by rw [hlen]; omega), hlen, bind_ok]
  simp only [List.take_zero, List.nil_append, Nat.zero_add]
  obtain ⟨c, hc⟩ : ∃ c, u[8]? = some c := ⟨u[8], by simp [hu]⟩
  have hc' : c ≠ 48 := by rintro rfl; exact h8 hc
  have hg : ∀ l : Mem, getc (u.map some ++ l) 8 = .ok c := by
    intro l
    unfold getc
    rw [List.getElem?_append_left (by simp [hu]), List.getElem?_map, hc]
    rfl
  have e1 : (u ++ [10]).map some ++ [some (0 : UInt8)] ++ buf.drop 26 = u.map some ++ (some 10 :: some 0 :: buf.drop 26) := by simp
  rw [e1, hg, bind_ok, if_neg hc', bind_ok, putc_ok (by simp [hu]; omega), bind_ok,
    List.set_append_right _ _ (by simp [hu]; omega)]
  obtain ⟨m, rfl⟩ : ∃ m, len = 26 + m := ⟨len - 26, by omega⟩
  have e2 : 26 + m - 1 - (u.map some).length = m + 1 := by simp [hu]; omega
  rw [e2, List.set_cons_succ]
  obtain ⟨r, hr⟩ : ∃ r, (some (0 : UInt8) :: buf.drop 26).set m (some 0) = some 0 :: r := by
    cases m <;> simp
  have hrl : r.length = buf.length - 26 := by
    have := congrArg List.length hr
    simp at this
    omega
  rw [hr, show u.map some ++ some 10 :: some (0 : UInt8) :: r = (u.map some ++ [some 10]) ++ some 0 :: r by simp,
    getc_mid _ _ _ (by simp [hu]), bind_ok, if_neg (by decide),
    show (u.map some ++ [some 10]) ++ some (0 : UInt8) :: r = u.map some ++ some 10 :: some 0 :: r by simp, putc_mid _ _ _ _ (by simp [hu])]
  exact ⟨_, rfl, by simp [hrl]; omega⟩

theorem pad2_len {n : Nat} (h : n < 100) : (pad 2 n).length = 2 := by
  rw [← two_eq_pad h]; rfl

theorem numeral4_len {n : Nat} (h0 : 1000 ≤ n) (h : n < 10000) : (numeral n).length = 4 := by
  rw [numeral_big (by omega), numeral_big (show 10 ≤ n / 10 by omega), numeral_big (show 10 ≤ n / 10 / 10 by omega),
    numeral_small (show n / 10 / 10 / 10 < 10 by omega)]
  rfl

theorem dayPart {da : Nat} (h1 : 1 ≤ da) (h2 : da ≤ 31) :
    (if (da : Int) < 10 then [32, 32, UInt8.ofNat (48 + (da : Int).toNat)] else 32 :: two da) =
      [32] ++ (if da < 10 then [32] else []) ++ numeral da := by
  by_cases h : da < 10
  · rw [if_pos h, if_pos (by omega), numeral_small h]; simp
  · rw [if_neg h, if_neg (by omega), numeral_big (by omega), numeral_small (by omega)]; simp [two]

theorem dayPart_len {da : Nat} (h1 : 1 ≤ da) (h2 : da ≤ 31) : ((if da < 10 then [(32 : UInt8)] else []) ++ numeral da).length = 2 ∧
    ((if da < 10 then [(32 : UInt8)] else []) ++ numeral da)[0]? ≠ some 48 := by
  interval_cases da <;> decide +kernel

theorem prettyStamp_length {y mo da h mi s wd : Nat} (hmo : 1 ≤ mo ∧ mo ≤ 12) (hda : 1 ≤ da ∧ da ≤ 31) (hh : h ≤ 23)
    (hmi : mi ≤ 59) (hs : s ≤ 60) (hw1 : 1 ≤ wd) (hw2 : wd ≤ 7) :
    (prettyStamp y mo da h mi s wd).length = 20 + (numeral y).length ∧ (prettyStamp y mo da h mi s wd)[8]? ≠ some 48 := by
  have a1 := weekDays_len wd hw1 hw2
  have a2 := months_len mo hmo.1 hmo.2
  obtain ⟨a3, a4⟩ := dayPart_len hda.1 hda.2
  have a5 := pad2_len (show h < 100 by omega)
  have a6 := pad2_len (show mi < 100 by omega)
  have a7 := pad2_len (show s < 100 by omega)
  unfold prettyStamp
  generalize chars (weekDays.getD (wd - 1) "") = A at *
  generalize chars (months.getD (mo - 1) "") = B at *
  constructor
  · simp only [List.length_append, List.length_singleton] at a3 ⊢
    omega
  · have e : A ++ [32] ++ B ++ [32] ++ (if da < 10 then [32] else []) ++ numeral da ++ [32] ++ pad 2 h ++ [58] ++ pad 2 mi ++ [58] ++ pad 2 s ++
        [32] ++ numeral y = (A ++ [32] ++ B ++ [32]) ++ (((if da < 10 then [32] else []) ++ numeral da) ++ ([32] ++ pad 2 h ++ [58] ++ pad 2 mi ++
        [58] ++ pad 2 s ++ [32] ++ numeral y)) := by simp only [List.append_assoc]
    rw [e, List.getElem?_append_right (by simp [a1, a2]), show 8 - List.length (A ++ [32] ++ B ++ [32]) = 0 by simp [a1, a2],
      List.getElem?_append_left (by omega)]
    exact a4

/-- Fields in range, with any positive year. -/
structure Fields (d : VDT) (y mo da h mi s wd : Nat) : Prop where
  year : d.year = y
  month : d.month = mo
  mday : d.mday = da
  hour : d.hour = h
  minute : d.minute = mi
  second : d.second = s
  wday : d.wday = wd
  hy : 1 ≤ y ∧ y < 2 ^ 15
  hmo : 1 ≤ mo ∧ mo ≤ 12
  hda : 1 ≤ da ∧ da ≤ 31
  hh : h ≤ 23
  hmi : mi ≤ 59
  hs : s ≤ 60
  hw : 1 ≤ wd ∧ wd ≤ 7

theorem asctime_eq {d : VDT} {y mo da h mi s wd : Nat} (p : Fields d y mo da h mi s wd) (buf : Mem) :
    asctime buf (vdtToTm d) = if (prettyStamp y mo da h mi s wd).length ≤ 24 then
      writeN buf 0 ((prettyStamp y mo da h mi s wd ++ [10]).map some ++ [some 0]) else .ub := by
  have hy := p.hy
  have hmo := p.hmo
  have hda := p.hda
  have hh := p.hh
  have hmi := p.hmi
  have hs := p.hs
  have hw := p.wday
  obtain ⟨hw1, hw2⟩ := p.hw
  have hyr : (vdtToTm d).year = (y : Int) - 1900 := by
    unfold vdtToTm minYear
    rw [p.year]; simp; omega
  have hmon : (vdtToTm d).mon = (mo : Int) - 1 := by simp [vdtToTm, p.month]
  have hmd : (vdtToTm d).mday = da := by simp [vdtToTm, p.mday]
  have hho : (vdtToTm d).hour = h := by simp [vdtToTm, p.hour]
  have hmin : (vdtToTm d).min = mi := by simp [vdtToTm, p.minute]
  have hsec : (vdtToTm d).sec = s := by simp [vdtToTm, p.second]
  have hwd : (vdtToTm d).wday = if (wd : Int) = 7 then (0 : Int) else (wd : Int) := by simp [vdtToTm, hw]
  have hN : (vdtToTm d).Normal := by
    unfold Tm.Normal
    rw [hyr, hmon, hmd, hho, hmin, hsec, hwd]
    refine ⟨by omega, by omega, by omega, by omega, by omega, by omega, ?_⟩
    split <;> omega
  have hs : wdayName (vdtToTm d).wday ++ [32] ++ monName (vdtToTm d).mon ++ (if (vdtToTm d).mday < 10 then [32, 32, UInt8.ofNat (48 + (vdtToTm d).mday.toNat)] else 32 :: two (vdtToTm d).mday) ++ [32] ++ two (vdtToTm d).hour ++ [58] ++ two (vdtToTm d).min ++ [58] ++ two (vdtToTm d).sec ++ [32] ++
    Conv.printD ((vdtToTm d).year + 1900) ++ [10] = prettyStamp y mo da h mi s wd ++ [10] := by
    rw [hyr, hmon, hmd, hho, hmin, hsec, hwd, wdayName_eq wd hw1 hw2, monName_eq mo hmo.1 hmo.2, dayPart hda.1 hda.2,
      two_eq_pad (show h < 100 by omega), two_eq_pad (show mi < 100 by omega), two_eq_pad (show s < 100 by omega),
      show (y : Int) - 1900 + 1900 = y by omega, printD_eq (by omega) (by omega)]
    unfold numeralInt prettyStamp
    rw [if_neg (show ¬ (y : Int) < 0 by omega), Int.toNat_natCast]
    simp only [List.append_assoc]
  unfold asctime
  simp only []
  rw [hs]
  by_cases hl : (prettyStamp y mo da h mi s wd).length ≤ 24
  · rw [if_pos hl, if_pos ⟨hN, by simp; omega⟩]
  · rw [if_neg hl, if_neg (fun g => hl (by have := g.2; simp at this; omega))]

/-- **C72.** The pretty text of a datetime with a four-digit year: exactly "Www Mmm dd hh:mm:ss yyyy" and its terminator, written inside a
buffer of the required 26 bytes. -/
theorem C72_pretty {E : Env} {d : VDT} {y mo da h mi s wd : Nat} (p : Printable d y mo da h mi s) (hw : d.wday = wd) (hw1 : 1 ≤ wd) (hw2 : wd ≤ 7)
    {buf : Mem} {len : Nat} (hl : 26 ≤ len) (hsz : len < 2 ^ 64) (hb : len ≤ buf.length) :
    ∃ rest, toTextPretty E d buf len = .ok ((prettyStamp y mo da h mi s wd).map some ++ some 0 :: rest) ∧
      (prettyStamp y mo da h mi s wd).length = 24 ∧ rest.length = buf.length - 25 := by
  obtain ⟨l24, l8⟩ := prettyStamp_length (y := y) p.hmo p.hda p.hh p.hmi p.hs hw1 hw2
  rw [numeral4_len p.hy.1 (show y < 10000 by have := p.hy; omega)] at l24
  obtain ⟨rest, hr, hrl⟩ := pretty_core l24 l8 hl hb
  refine ⟨rest, ?_, l24, hrl⟩
  rw [← hr]
  unfold toTextPretty
  rw [wsub_eq (by omega) hsz]
  have hy := p.hy
  rw [decide_eq_true (show len ≥ 26 from hl), dassert_true, bind_ok, asctime_eq ⟨p.year, p.month, p.mday, p.hour, p.minute, p.second, hw,
    ⟨by omega, by omega⟩, p.hmo, p.hda, p.hh, p.hmi, p.hs, hw1, hw2⟩, if_pos (by omega)]

/-- Example: a date meeting the hypotheses, in a buffer of uninitialised bytes. -/
example : Printable ⟨2026, 11, 6, 9, 5, 0, 5, 310⟩ 2026 11 6 9 5 0 ∧
    toTextPretty exE ⟨2026, 11, 6, 9, 5, 0, 5, 310⟩ (List.replicate 26 none) 26 = .ok ((chars "Fri Nov  6 09:05:00 2026").map some ++ [some 0, some 0]) := by
  refine ⟨⟨rfl, rfl, rfl, rfl, rfl, rfl, ?_, ?_, ?_, ?_, ?_, ?_⟩, ?_⟩ <;> decide +kernel

theorem numeral_len_big {n : Nat} (h : 10000 ≤ n) : 5 ≤ (numeral n).length := by
  rw [numeral_big (by omega), numeral_big (show 10 ≤ n / 10 by omega), numeral_big (show 10 ≤ n / 10 / 10 by omega),
    numeral_big (show 10 ≤ n / 10 / 10 / 10 by omega)]
  have : 1 ≤ (numeral (n / 10 / 10 / 10 / 10)).length := by
    rcases Nat.lt_or_ge (n / 10 / 10 / 10 / 10) 10 with g | g
    · rw [numeral_small g]; simp
    · rw [numeral_big g]; simp
  simp
  omega

theorem numeral_len_small {n : Nat} (h : n < 1000) : (numeral n).length ≤ 3 := by
  rcases Nat.lt_or_ge n 10 with g | g
  · rw [numeral_small g]; simp
  · rw [numeral_big g]
    rcases Nat.lt_or_ge (n / 10) 10 with g | g
    · rw [numeral_small g]; simp
    · rw [numeral_big g, numeral_small (show n / 10 / 10 < 10 by omega)]; simp

/-- **C72, short buffers.** A length below 26 is rejected in debug builds; in release builds the 26 bytes are written all the same, which is undefined for every
shorter buffer. -/
theorem C72_short_buffer {E : Env} {d : VDT} {y mo da h mi s wd : Nat} (p : Printable d y mo da h mi s) (hw : d.wday = wd) (hw1 : 1 ≤ wd) (hw2 : wd ≤ 7)
    {buf : Mem} {len : Nat} (hl : len < 26) :
    (E.debug = true → toTextPretty E d buf len = .exit .dbgAssert) ∧ (E.debug = false → buf.length < 26 → toTextPretty E d buf len = .ub) := by
  constructor
  · intro hd
    unfold toTextPretty
    rw [decide_eq_false (show ¬ len ≥ 26 by omega), dassert_false hd, bind_exit]
  · intro hd hb
    obtain ⟨l24, -⟩ := prettyStamp_length (y := y) p.hmo p.hda p.hh p.hmi p.hs hw1 hw2
    have hy := p.hy
    rw [numeral4_len p.hy.1 (show y < 10000 by omega)] at l24
    unfold toTextPretty
    rw [dassert_release hd, bind_ok, asctime_eq ⟨p.year, p.month, p.mday, p.hour, p.minute, p.second, hw,
      ⟨by omega, by omega⟩, p.hmo, p.hda, p.hh, p.hmi, p.hs, hw1, hw2⟩, if_pos (by omega), writeN_ub (by simp; omega), bind_ub]

/-- **C72, short buffers.** In release builds the length 0 makes the function write before the buffer, whatever the date and the size of the buffer. -/
theorem C72_zero_length {E : Env} (hd : E.debug = false) (d : VDT) {buf : Mem} (hb : buf.length < 2 ^ 64) : toTextPretty E d buf 0 = .ub := by
  unfold toTextPretty
  rw [dassert_release hd, bind_ok]
  have ha : asctime buf (vdtToTm d) = .ub ∨ ∃ b, asctime buf (vdtToTm d) = .ok b ∧ b.length = buf.length := by
    unfold asctime
    simp only
    generalize (wdayName _ ++ _ ++ _ ++ _ ++ _ ++ _ ++ _ ++ _ ++ _ ++ _ ++ _ ++ _ ++ _ : List UInt8) = u
    by_cases hc : (vdtToTm d).Normal ∧ u.length ≤ 25
    · rw [if_pos hc]
      by_cases hw : 0 + (u.map some ++ [some (0 : UInt8)]).length ≤ buf.length
      · rw [writeN_ok (by simpa using hw)]
        exact Or.inr ⟨_, rfl, by simp at hw ⊢; omega⟩
      · exact Or.inl (writeN_ub (by omega))
    · rw [if_neg hc]
      exact Or.inl rfl
  rcases ha with ha | ⟨b, ha, hl⟩
  · rw [ha, bind_ub]
  · rw [ha, bind_ok]
    have hg : getc b 8 = .ub ∨ ∃ c, getc b 8 = .ok c := by
      unfold getc
      split
      · exact Or.inr ⟨_, rfl⟩
      · exact Or.inl rfl
    rcases hg with hg | ⟨c, hg⟩
    · rw [hg, bind_ub]
    · rw [hg, bind_ok]
      have hz : wsub 0 1 = 2 ^ 64 - 1 := by decide
      rw [hz]
      split
      · have hp : putc b 8 32 = .ub ∨ ∃ b', putc b 8 32 = .ok b' ∧ b'.length = b.length := by
          by_cases h8 : 8 < b.length
          · exact Or.inr ⟨_, putc_ok h8 _, by simp⟩
          · exact Or.inl (putc_ub (by omega) _)
        rcases hp with hp | ⟨b', hp, hl'⟩
        · rw [hp, bind_ub]
        · rw [hp, bind_ok]
          simp only
          rw [putc_ub (by omega), bind_ub]
      · rw [bind_ok]
        simp only
        rw [putc_ub (by omega), bind_ub]

/-- Example: a buffer which is large enough, and a date. -/
example : toTextPretty ⟨false, fun _ => false, false, fun _ h => by simp at h⟩ ⟨2026, 11, 6, 9, 5, 0, 5, 310⟩ (List.replicate 26 none) 0 = .ub := C72_zero_length rfl _ (by simp)

/-- **C72, limits.** Every year beyond 9999 overflows the 26 bytes `asctime` may use. -/
theorem C72_long_years {E : Env} {d : VDT} {y mo da h mi s wd : Nat} (p : Fields d y mo da h mi s wd) (hy : 10000 ≤ y)
    {buf : Mem} {len : Nat} (hl : 26 ≤ len) : toTextPretty E d buf len = .ub := by
  obtain ⟨l24, -⟩ := prettyStamp_length (y := y) p.hmo p.hda p.hh p.hmi p.hs p.hw.1 p.hw.2
  have := numeral_len_big hy
  unfold toTextPretty
  rw [decide_eq_true (show len ≥ 26 from hl), dassert_true, bind_ok, asctime_eq p, if_neg (by omega), bind_ub]

/-- **C72, limits.** For every year below 1000 the text keeps its line end; and if the buffer is larger than 26 bytes, a byte of it is
used that the function has not written: undefined if nobody else has. -/
theorem C72_short_years {E : Env} {d : VDT} {y mo da h mi s wd : Nat} (p : Fields d y mo da h mi s wd) (hy : y < 1000)
    {buf : Mem} {len : Nat} (hl : 26 ≤ len) (hsz : len < 2 ^ 64) (hb : len ≤ buf.length) :
    ((len = 26 ∨ ∃ c, buf[25]? = some (some c)) →
      ∃ rest, toTextPretty E d buf len = .ok ((prettyStamp y mo da h mi s wd ++ [10]).map some ++ some 0 :: rest)) ∧
    (len ≠ 26 → buf[25]? = some none → toTextPretty E d buf len = .ub) := by
  obtain ⟨l24, l8⟩ := prettyStamp_length (y := y) p.hmo p.hda p.hh p.hmi p.hs p.hw.1 p.hw.2
  have hn := numeral_len_small hy
  unfold toTextPretty
  rw [wsub_eq (by omega) hsz]
  rw [decide_eq_true (show len ≥ 26 from hl), dassert_true, bind_ok, asctime_eq p, if_pos (by omega)]
  generalize hu : prettyStamp y mo da h mi s wd = u at *
  generalize hv : (u ++ [10]).map some ++ [some (0 : UInt8)] = v at *
  have hvl : v.length = u.length + 2 := by rw [← hv]; simp
  rw [writeN_ok (by omega), bind_ok]
  simp only [List.take_zero, List.nil_append, Nat.zero_add]
  obtain ⟨c, hc⟩ : ∃ c, u[8]? = some c := ⟨u[8]'(by omega), by simp⟩
  have hc' : c ≠ 48 := by rintro rfl; exact l8 hc
  have hg : getc (v ++ buf.drop v.length) 8 = .ok c := by
    unfold getc
    rw [List.getElem?_append_left (by omega), ← hv, List.getElem?_append_left (by simp; omega), List.getElem?_map,
      List.getElem?_append_left (by omega), hc]
    rfl
  have hm : (v ++ buf.drop v.length).length = buf.length := by simp; omega
  rw [hg, bind_ok, if_neg hc', bind_ok, putc_ok (by omega), bind_ok]
  have h25 : (v ++ buf.drop v.length)[25]? = buf[25]? := by
    rw [List.getElem?_append_right (by omega), List.getElem?_drop]; congr 1; omega
  have pre : ∀ m : Mem, m.take v.length = v → ∃ rest, m = (u ++ [10]).map some ++ some 0 :: rest := by
    intro m h
    refine ⟨m.drop v.length, ?_⟩
    have e := (List.take_append_drop v.length m).symm
    rw [h] at e
    generalize m.drop v.length = r at e ⊢
    rw [e, ← hv]
    simp
  have take1 : ((v ++ buf.drop v.length).set (len - 1) (some 0)).take v.length = v := by
    rw [List.take_set_of_le (by omega), List.take_append_of_le_length (by omega), List.take_length]
  have take2 : ∀ (m : Mem) (i : Nat), m.take v.length = v → v.length ≤ m.length → i = 24 ∨ i = 25 → (m.set i (some 0)).take v.length = v := by
    intro m i h h1 h2
    rw [List.take_set, h]
    by_cases hi : i < v.length
    · have e : v[i]? = some (some 0) := by
        rw [← hv, List.getElem?_append_right (by simp; omega)]
        have : i - ((u ++ [10]).map some).length = 0 := by simp; omega
        simp only [this]
        rfl
      apply List.ext_getElem?
      intro k
      rw [List.getElem?_set]
      split
      · subst k; rw [e]
      · rfl
    · exact List.set_eq_of_length_le (by omega)
  constructor
  · intro h
    obtain ⟨c', e⟩ : ∃ c', ((v ++ buf.drop v.length).set (len - 1) (some 0))[25]? = some (some c') := by
      rw [List.getElem?_set]
      split
      · exact ⟨0, by rw [if_pos (by omega)]⟩
      · rw [h25]
        rcases h with h | h
        · omega
        · exact h
    rw [show getc ((v ++ buf.drop v.length).set (len - 1) (some 0)) 25 = .ok c' by unfold getc; rw [e], bind_ok]
    split
    · rw [putc_ok (by simp only [List.length_set]; omega)]
      obtain ⟨rest, hr⟩ := pre _ (take2 _ 25 take1 (by simp) (Or.inr rfl))
      exact ⟨rest, by rw [hr]⟩
    · rw [putc_ok (by simp only [List.length_set]; omega)]
      obtain ⟨rest, hr⟩ := pre _ (take2 _ 24 take1 (by simp) (Or.inl rfl))
      exact ⟨rest, by rw [hr]⟩
  · intro h1 h2
    have e : ((v ++ buf.drop v.length).set (len - 1) (some 0))[25]? = some none := by
      rw [List.getElem?_set, if_neg (by omega), h25, h2]
    rw [show getc ((v ++ buf.drop v.length).set (len - 1) (some 0)) 25 = .ub by unfold getc; rw [e], bind_ub]

/-- Example: the years 10000 and 999. -/
example : Fields ⟨999, 1, 1, 0, 0, 0, 2, 1⟩ 999 1 1 0 0 0 2 ∧
    toTextPretty exE ⟨10000, 1, 1, 0, 0, 0, 6, 1⟩ (List.replicate 64 (some 0)) 64 = .ub ∧
    toTextPretty exE ⟨999, 1, 1, 0, 0, 0, 2, 1⟩ (List.replicate 64 (some 0)) 64 =
      .ok ((chars "Tue Jan  1 00:00:00 999\n").map some ++ List.replicate 40 (some 0)) ∧
    toTextPretty exE ⟨999, 1, 1, 0, 0, 0, 2, 1⟩ (List.replicate 64 none) 64 = .ub := by
  refine ⟨⟨rfl, rfl, rfl, rfl, rfl, rfl, rfl, ?_, ?_, ?_, ?_, ?_, ?_, ?_⟩, ?_⟩ <;> decide +kernel

end Vita
