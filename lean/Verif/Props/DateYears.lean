import Verif.Props.DateText
/-!
# C53 for other years: dates whose year has not four digits
-/

namespace Vita
open Out DT Spec

/-- Fields in range, with any year of `int16_t` but 0. -/
structure AnyYear (d : VDT) (y : Int) (mo da h mi s : Nat) : Prop where
  year : d.year = y
  month : d.month = mo
  mday : d.mday = da
  hour : d.hour = h
  minute : d.minute = mi
  second : d.second = s
  hy : y ≠ 0 ∧ -2 ^ 15 ≤ y ∧ y < 2 ^ 15
  hmo : 1 ≤ mo ∧ mo ≤ 12
  hda : 1 ≤ da ∧ da ≤ 31
  hh : h ≤ 23
  hmi : mi ≤ 59
  hs : s ≤ 60

/-- Date and time of day with the given separators; the year is not filled up. -/
def yearStamp (s1 s2 s3 : Text) (y : Int) (mo d h mi s : Nat) : Text :=
  numeralInt y ++ s1 ++ pad 2 mo ++ s1 ++ pad 2 d ++ s2 ++ pad 2 h ++ s3 ++ pad 2 mi ++ s3 ++ pad 2 s

example : yearStamp [45] [32] [58] (-44) 3 15 12 0 0 = "-44-03-15 12:00:00".toUTF8.data.toList := by decide +kernel

theorem anyYear_fmt {d : VDT} {y : Int} {mo da h mi s : Nat} (p : AnyYear d y mo da h mi s) :
    fmtAll (vdtToTm d) fmtText = .ok (yearStamp [45] [32] [58] y mo da h mi s) ∧
    fmtAll (vdtToTm d) fmtIso = .ok (yearStamp [] [84] [] y mo da h mi s) ∧
    fmtAll (vdtToTm d) fmtIsoExt = .ok (yearStamp [45] [84] [58] y mo da h mi s) := by
  obtain ⟨h1, h2, h3, h4, h5, h6, b1, b2, b3, b4, b5, b6⟩ := p
  have e1 : fmtPiece (vdtToTm d) .Y = .ok (numeralInt y) := by
    simp only [fmtPiece, vdtToTm, minYear, h1]
    rw [if_pos b1.1, show y - 1900 + 1900 = y by omega, printD_eq (by omega) (by omega)]
  have e2 : fmtPiece (vdtToTm d) .m = .ok (two mo) := by
    simp only [fmtPiece, vdtToTm, h2]
    rw [if_pos (by omega)]; congr 2; omega
  have e3 : fmtPiece (vdtToTm d) .d = .ok (two da) := by
    simp only [fmtPiece, vdtToTm, h3]
    rw [if_pos (by omega)]
  have e4 : fmtPiece (vdtToTm d) .H = .ok (two h) := by
    simp only [fmtPiece, vdtToTm, h4]
    rw [if_pos (by omega)]
  have e5 : fmtPiece (vdtToTm d) .M = .ok (two mi) := by
    simp only [fmtPiece, vdtToTm, h5]
    rw [if_pos (by omega)]
  have e6 : fmtPiece (vdtToTm d) .S = .ok (two s) := by
    simp only [fmtPiece, vdtToTm, h6]
    rw [if_pos (by omega)]
  have l : ∀ c, fmtPiece (vdtToTm d) (.lit c) = .ok [c] := fun c => rfl
  unfold yearStamp
  rw [← two_eq_pad (show mo < 100 by omega), ← two_eq_pad (show da < 100 by omega),
    ← two_eq_pad (show h < 100 by omega), ← two_eq_pad (show mi < 100 by omega), ← two_eq_pad (show s < 100 by omega)]
  refine ⟨?_, ?_, ?_⟩
  · simp only [fmtText, fmtAll, e1, e2, e3, e4, e5, e6, l, bind_ok, List.append_assoc, List.append_nil]
  · simp only [fmtIso, fmtAll, e1, e2, e3, e4, e5, e6, l, bind_ok, List.append_assoc, List.append_nil, List.nil_append]
  · simp only [fmtIsoExt, fmtAll, e1, e2, e3, e4, e5, e6, l, bind_ok, List.append_assoc, List.append_nil]

theorem numeral_len_le {n : Nat} (h : n < 100000) : 1 ≤ (numeral n).length ∧ (numeral n).length ≤ 5 := by
  by_cases a : n < 10
  · rw [numeral_small a]; simp
  rw [numeral_big (by omega)]
  by_cases b : n / 10 < 10
  · rw [numeral_small b]; simp
  rw [numeral_big (by omega)]
  by_cases c : n / 10 / 10 < 10
  · rw [numeral_small c]; simp
  rw [numeral_big (by omega)]
  by_cases e : n / 10 / 10 / 10 < 10
  · rw [numeral_small e]; simp
  rw [numeral_big (by omega), numeral_small (by omega)]
  simp

theorem numeralInt_len {y : Int} (h : -2 ^ 15 ≤ y ∧ y < 2 ^ 15) : (numeralInt y).length ≤ 6 := by
  unfold numeralInt
  split
  · have := (numeral_len_le (show y.natAbs < 100000 by omega)).2
    simp; omega
  · have := (numeral_len_le (show y.toNat < 100000 by omega)).2
    omega

theorem yearStamp_length {y : Int} {mo da h mi s : Nat} (hmo : mo ≤ 12) (hda : da ≤ 31) (hh : h ≤ 23) (hmi : mi ≤ 59) (hs : s ≤ 60) (a b c : Text) :
    (yearStamp a b c y mo da h mi s).length = (numeralInt y).length + 10 + 2 * a.length + b.length + 2 * c.length := by
  unfold yearStamp
  simp only [List.length_append, pad2_len (show mo < 100 by omega), pad2_len (show da < 100 by omega), pad2_len (show h < 100 by omega),
    pad2_len (show mi < 100 by omega), pad2_len (show s < 100 by omega)]
  omega

/-- **C53.** The texts written for every year: as for the usual ones, but the year is not filled up to four digits; inside the buffer, the rest of which
is unchanged. -/
theorem C53_text_any_year {E : Env} {d : VDT} {y : Int} {mo da h mi s : Nat} (p : AnyYear d y mo da h mi s) {buf : Mem} {len : Nat} (hl : 26 ≤ len)
    (hb : len ≤ buf.length) :
    toText E d buf len = .ok ((yearStamp [45] [32] [58] y mo da h mi s).map some ++ some 0 :: buf.drop ((yearStamp [45] [32] [58] y mo da h mi s).length + 1)) ∧
    toTextIso E d buf len = .ok ((yearStamp [] [84] [] y mo da h mi s).map some ++ some 0 :: buf.drop ((yearStamp [] [84] [] y mo da h mi s).length + 1)) ∧
    toTextIsoExt E d buf len = .ok ((yearStamp [45] [84] [58] y mo da h mi s).map some ++ some 0 :: buf.drop ((yearStamp [45] [84] [58] y mo da h mi s).length + 1)) := by
  obtain ⟨f1, f2, f3⟩ := anyYear_fmt p
  have hlen := fun a b c => yearStamp_length (y := y) p.hmo.2 p.hda.2 p.hh p.hmi p.hs a b c
  have hn := numeralInt_len p.hy.2
  refine ⟨?_, ?_, ?_⟩
  · unfold toText
    exact toTextFmt_ok f1 (by rw [hlen]; simp; omega) hl hb
  · unfold toTextIso
    exact toTextFmt_ok f2 (by rw [hlen]; simp; omega) hl hb
  · unfold toTextIsoExt
    exact toTextFmt_ok f3 (by rw [hlen]; simp; omega) hl hb

theorem validLoop_reject {z : Mem} {fs : List UInt8} {k : Nat} (hk : k < fs.length) (hc : Checked fs[k]) {c : UInt8} (hz : z[k]? = some (some c))
    (hd : isDigit c = false) (hi : ∀ j < k, ∃ c, z[j]? = some (some c)) : validLoop z fs 0 = .ok false := by
  obtain ⟨b, hb⟩ := validLoop_safe z fs 0 (fun j hj hcj => by
    simp only [Nat.zero_add]
    by_cases h : j ≤ k
    · left
      rcases Nat.lt_or_eq_of_le h with h | rfl
      · exact hi j h
      · exact ⟨c, hz⟩
    · exact Or.inr ⟨k, by omega, hc, c, hz, hd⟩)
  cases b with
  | false => exact hb
  | true =>
    obtain ⟨c', h1, h2⟩ := (validLoop_true z fs 0).1 hb k hk hc
    rw [Nat.zero_add, hz] at h1
    cases h1
    rw [hd] at h2
    cases h2

/-- A text with a character that is no digit at a checked position is rejected. -/
theorem reject_at {t : Text} {rest : Mem} {fs : List UInt8} {k : Nat} (hk : k < fs.length) (hc : Checked fs[k]) {c : UInt8} (ht : t[k]? = some c)
    (hd : isDigit c = false) : validLoop (t.map some ++ some 0 :: rest) fs 0 = .ok false := by
  have hkt : k < t.length := by
    rcases Nat.lt_or_ge k t.length with h | h
    · exact h
    · rw [List.getElem?_eq_none h] at ht; cases ht
  have key : ∀ j, j < t.length → (t.map some ++ some (0 : UInt8) :: rest)[j]? = (t[j]?).map some := fun j hj => by
    rw [List.getElem?_append_left (by simpa using hj), List.getElem?_map]
  refine validLoop_reject hk hc (c := c) ?_ hd fun j hj => ?_
  · rw [key k hkt, ht]; rfl
  · rw [key j (by omega), List.getElem?_eq_getElem (by omega)]
    exact ⟨_, rfl⟩

/-- **C53.** The texts of all other years are not read back: the parsing functions reject them and end the program. -/
theorem C53_other_years {E : Env} {d : VDT} {y : Int} {mo da h mi s : Nat} (p : AnyYear d y mo da h mi s) (hy : y < 1000 ∨ 9999 < y) {buf : Mem} {len : Nat}
    (hl : 26 ≤ len) (hb : len ≤ buf.length) :
    (toText E d buf len >>= fromText) = .exit .enforce ∧ (toTextIso E d buf len >>= fromTextIso) = .exit .enforce ∧
    (toTextIsoExt E d buf len >>= fromTextIsoExt) = .exit .enforce := by
  obtain ⟨t1, t2, t3⟩ := C53_text_any_year (E := E) p hl hb
  obtain ⟨q1, q2, q3⟩ := p.hy
  have hmo := pad2_len (show mo < 100 by have := p.hmo; omega)
  have hda := pad2_len (show da < 100 by have := p.hda; omega)
  generalize buf.drop _ = r1 at t1
  generalize buf.drop _ = r2 at t2
  generalize buf.drop _ = r3 at t3
  suffices H : isValidText ((yearStamp [45] [32] [58] y mo da h mi s).map some ++ some 0 :: r1) = .ok false ∧
      isValidIso ((yearStamp [] [84] [] y mo da h mi s).map some ++ some 0 :: r2) = .ok false ∧
      isValidIsoExt ((yearStamp [45] [84] [58] y mo da h mi s).map some ++ some 0 :: r3) = .ok false by
    rw [t1, t2, t3, bind_ok, bind_ok, bind_ok]
    unfold fromText fromTextIso fromTextIsoExt
    rw [H.1, H.2.1, H.2.2]
    exact ⟨rfl, rfl, rfl⟩
  by_cases hneg : y < 0
  · have e : ∀ a b c, (yearStamp a b c y mo da h mi s)[0]? = some 45 := fun a b c => by
      unfold yearStamp numeralInt
      rw [if_pos hneg]
      rfl
    exact ⟨reject_at (k := 0) (by decide) (by decide) (e _ _ _) (by decide), reject_at (k := 0) (by decide) (by decide) (e _ _ _) (by decide),
      reject_at (k := 0) (by decide) (by decide) (e _ _ _) (by decide)⟩
  · have hL : (numeralInt y).length ∈ [1, 2, 3, 5] := by
      unfold numeralInt
      rw [if_neg hneg]
      obtain ⟨g1, g2⟩ := numeral_len_le (show y.toNat < 100000 by omega)
      simp only [List.mem_cons, List.not_mem_nil, or_false]
      rcases hy with hy | hy
      · have := numeral_len_small (show y.toNat < 1000 by omega)
        omega
      · have := numeral_len_big (show 10000 ≤ y.toNat by omega)
        omega
    have e1 : ∀ b c, (yearStamp [45] b c y mo da h mi s)[(numeralInt y).length]? = some 45 := fun b c => by
      unfold yearStamp
      simp only [List.append_assoc]
      rw [List.getElem?_append_right (Nat.le_refl _)]
      simp
    have e2 : (yearStamp [] [84] [] y mo da h mi s)[(numeralInt y).length + 4]? = some 84 := by
      unfold yearStamp
      simp only [List.append_assoc, List.nil_append]
      rw [List.getElem?_append_right (by omega), List.getElem?_append_right (by omega), List.getElem?_append_right (by omega), hmo, hda]
      have : (numeralInt y).length + 4 - (numeralInt y).length - 2 - 2 = 0 := by omega
      rw [this]
      rfl
    have c1 : ∀ n ∈ [1, 2, 3, 5], ∃ h : n < vText.length, Checked vText[n] := by decide
    have c2 : ∀ n ∈ [1, 2, 3, 5], ∃ h : n + 4 < vIso.length, Checked vIso[n + 4] := by decide
    have c3 : ∀ n ∈ [1, 2, 3, 5], ∃ h : n < vIsoExt.length, Checked vIsoExt[n] := by decide
    obtain ⟨a1, b1⟩ := c1 _ hL
    obtain ⟨a2, b2⟩ := c2 _ hL
    obtain ⟨a3, b3⟩ := c3 _ hL
    exact ⟨reject_at a1 b1 (e1 _ _) (by decide), reject_at a2 b2 e2 (by decide), reject_at a3 b3 (e1 _ _) (by decide)⟩

/-- **C53.** The year 0 is written as the year 3800, and read back as this. -/
theorem C53_year_zero {E : Env} {d : VDT} {mo da h mi s : Nat} (p : Printable { d with year := 3800 } 3800 mo da h mi s) (h0 : d.year = 0) {buf : Mem}
    {len : Nat} (hl : 26 ≤ len) (hb : len ≤ buf.length) :
    (toText E d buf len >>= fromText) = .ok { d with year := 3800, wday := 7, yday := 1 } ∧
    (toTextIso E d buf len >>= fromTextIso) = .ok { d with year := 3800, wday := 7, yday := 1 } ∧
    (toTextIsoExt E d buf len >>= fromTextIsoExt) = .ok { d with year := 3800, wday := 7, yday := 1 } := by
  have e : vdtToTm d = vdtToTm { d with year := 3800 } := by simp [vdtToTm, h0, minYear]
  have := C53_round_trip (E := E) p hl hb
  unfold toText toTextIso toTextIsoExt toTextFmt at this ⊢
  rw [e]
  exact this

/-- Examples: a year before 1000, one before our era, one after 9999; and 0. -/
example : AnyYear ⟨999, 12, 31, 23, 59, 59, 1, 1⟩ 999 12 31 23 59 59 ∧
    (toText exE ⟨999, 12, 31, 23, 59, 59, 1, 1⟩ (List.replicate 26 none) 26 >>= fromText) = .exit .enforce ∧
    (toTextIso exE ⟨-44, 3, 15, 12, 0, 0, 1, 1⟩ (List.replicate 26 none) 26 >>= fromTextIso) = .exit .enforce ∧
    (toTextIsoExt exE ⟨10000, 1, 1, 0, 0, 0, 1, 1⟩ (List.replicate 26 none) 26 >>= fromTextIsoExt) = .exit .enforce ∧
    (toText exE ⟨0, 1, 1, 0, 0, 0, 1, 1⟩ (List.replicate 26 none) 26 >>= fromText) = .ok ⟨3800, 1, 1, 0, 0, 0, 7, 1⟩ :=
  ⟨⟨rfl, rfl, rfl, rfl, rfl, rfl, by omega, by omega, by omega, by omega, by omega, by omega⟩, by decide +kernel⟩

end Vita
