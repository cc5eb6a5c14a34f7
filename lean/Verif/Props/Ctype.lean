import Verif.Model.Ctype
import Verif.Props.StrQuery
import Verif.Props.Conv
import Verif.Props.DateText
/-!
# Property C119: the functions of ctype.h get arguments for which they are defined
-/

namespace Vita
open Out Spec

/-! ### Specification -/

/-- The characters for which the functions of ctype.h are not defined: as `char` they are negative and not `EOF`. -/
def Foreign (sg : Bool) (c : UInt8) : Prop := sg = true ∧ 128 ≤ c ∧ c ≠ 255

instance (sg c) : Decidable (Foreign sg c) := inferInstanceAs (Decidable (_ ∧ _ ∧ _))

/-- A character of a numeric text. -/
def NumChar (c : UInt8) : Prop := (48 ≤ c ∧ c ≤ 57) ∨ c = 46

/-- The first character of the text that is not numeric is a foreign one. -/
def ForeignFirst (sg : Bool) (t : Text) : Prop := ∃ a c b, t = a ++ c :: b ∧ (∀ x ∈ a, NumChar x) ∧ Foreign sg c

/-! ### Lemmas -/

theorem check_eq (sg : Bool) (c : UInt8) : Ctype.check sg c = if Foreign sg c then .ub else .ok () := by
  have key := uint8_ext (p := fun c => decide ((-1 ≤ Ctype.arg true c ∧ Ctype.arg true c ≤ 255) ↔ ¬ Foreign true c) &&
    decide ((-1 ≤ Ctype.arg false c ∧ Ctype.arg false c ≤ 255) ↔ ¬ Foreign false c)) (q := fun _ => true) (by decide +kernel) c
  simp only [Bool.and_eq_true, decide_eq_true_iff] at key
  unfold Ctype.check
  by_cases hf : Foreign sg c
  · rw [if_pos hf, if_neg (by cases sg <;> simp only [key, not_not] <;> exact hf)]
  · rw [if_neg hf, if_pos (by cases sg <;> simp only [key] <;> exact hf)]

theorem check_ok {sg : Bool} {c : UInt8} (h : ¬ Foreign sg c) : Ctype.check sg c = .ok () := by rw [check_eq, if_neg h]
theorem check_ub {sg : Bool} {c : UInt8} (h : Foreign sg c) : Ctype.check sg c = .ub := by rw [check_eq, if_pos h]

/-- White space and punctuation are ASCII. -/
theorem ascii_class (sg : Bool) : ∀ c, isspace c = true ∨ ispunct c = true ∨ isdigit c = true → ¬ Foreign sg c := by
  intro c
  have key := uint8_ext (p := fun c => !(isspace c || ispunct c || isdigit c) || decide (c < 128)) (q := fun _ => true) (by decide +kernel) c
  simp only [Bool.or_eq_true, Bool.not_eq_true', decide_eq_true_iff] at key
  rintro h ⟨-, h1, -⟩
  have : ¬ c < 128 := UInt8.not_lt.2 h1
  rcases key with key | key
  · simp only [Bool.or_eq_false_iff] at key
    rcases h with h | h | h
    · rw [h] at key; exact absurd key.1.1 (by decide)
    · rw [h] at key; exact absurd key.1.2 (by decide)
    · rw [h] at key; exact absurd key.2 (by decide)
  · exact this key

theorem cstripFront_eq {sg : Bool} {p : UInt8 → Bool} (hp : ∀ c, p c = true → ¬ Foreign sg c) {m : Mem} : ∀ k o,
    Ctype.stripFront sg p m k o = (Str.stripFront p m k o >>= fun r => getc m r >>= fun x => Ctype.check sg x >>= fun _ => .ok r)
  | 0, o => rfl
  | k + 1, o => by
    rw [Ctype.stripFront, Str.stripFront]
    cases hg : getc m o with
    | ok x =>
      simp only [bind_ok]
      by_cases hx : p x = true
      · simp only [check_ok (hp x hx), bind_ok, hx, if_true]
        exact cstripFront_eq hp k (o + 1)
      · simp only [hx, if_false, bind_ok, hg, Bool.false_eq_true]
    | _ => rfl

theorem cstripBack_eq {sg : Bool} {p : UInt8 → Bool} (hp : ∀ c, p c = true → ¬ Foreign sg c) {m : Mem} {off : Nat} : ∀ k l,
    Ctype.stripBack sg p m off k l =
      (Str.stripBack p m off k l >>= fun r => getc m (wsub (wadd r off) 1) >>= fun x => Ctype.check sg x >>= fun _ => .ok r)
  | 0, l => rfl
  | k + 1, l => by
    rw [Ctype.stripBack, Str.stripBack]
    cases hg : getc m (wsub (wadd l off) 1) with
    | ok x =>
      simp only [bind_ok]
      by_cases hx : p x = true
      · simp only [check_ok (hp x hx), bind_ok, hx, if_true]
        exact cstripBack_eq hp k _
      · simp only [hx, if_false, bind_ok, hg, Bool.false_eq_true]
    | _ => rfl

/-- Stripping looks at the ends of what is kept. -/
theorem cstripBy_eq {sg : Bool} {p : UInt8 → Bool} (hp : ∀ c, p c = true → ¬ Foreign sg c) (h0 : p 0 = false) {v : Arr} {t mid : Text}
    (h : IsStr v t) (hs : IsStrip p t mid) (hm : mid ≠ []) {k : Nat} (hk : t.length < k) :
    Ctype.stripBy sg p k v =
      if Foreign sg (mid.head hm) ∨ Foreign sg (mid.getLast hm) then .ub else Str.stripBy p k v := by
  obtain ⟨a, b, ht, ha, hb, h1, h2⟩ := hs
  have hle := h.le
  have hlim := h.lim
  have hlen : t.length = a.length + mid.length + b.length := by rw [ht]; simp; omega
  have hpos : 0 < mid.length := List.length_pos_iff.2 hm
  have e1 : Str.stripFront p v.mem k 0 = .ok a.length := by
    have := stripFront_ok (u := mid ++ b) h.text (p := p) ?_ h0 a [] k (by rw [ht]; simp) ha (by omega)
    · simpa using this
    · intro c hc
      cases mid with
      | nil => exact absurd rfl hm
      | cons x mid => exact h1 c (by simpa using hc)
  have e2 := stripBack_ok (p := p) h.text ht (by omega) hb hm h2 b.length k (Nat.le_refl _) (by omega)
  have w : wsub v.len a.length = mid.length + b.length := by rw [h.len, wsub_eq (by omega) (by omega)]; omega
  have w2 : wsub (wadd mid.length a.length) 1 = mid.length + a.length - 1 := by rw [wadd_eq (by omega), wsub_eq (by omega) (by omega)]
  have g1 : getc v.mem a.length = .ok (mid.head hm) := getc_of h.text (by
    rw [ht, List.append_assoc, List.getElem?_append_right (Nat.le_refl _), Nat.sub_self, List.getElem?_append_left hpos,
      List.head_eq_getElem hm, List.getElem?_eq_getElem hpos])
  have g2 : getc v.mem (mid.length + a.length - 1) = .ok (mid.getLast hm) := getc_of h.text (by
    rw [ht, List.append_assoc, List.getElem?_append_right (by omega), List.getElem?_append_left (by omega),
      show mid.length + a.length - 1 - a.length = mid.length - 1 by omega, List.getLast_eq_getElem, List.getElem?_eq_getElem])
  unfold Ctype.stripBy Str.stripBy
  rw [cstripFront_eq hp, e1]
  simp only [bind_ok, g1]
  by_cases f1 : Foreign sg (mid.head hm)
  · simp only [check_ub f1, bind_ub, f1, true_or, if_true]
  · simp only [check_ok f1, bind_ok, f1, false_or, w]
    rw [cstripBack_eq hp, e2]
    simp only [bind_ok, w2, g2]
    by_cases f2 : Foreign sg (mid.getLast hm)
    · simp only [check_ub f2, bind_ub, f2, if_true]
    · simp only [check_ok f2, bind_ok, f2, if_false]

theorem cmapLoop_eq {sg : Bool} {f : UInt8 → UInt8} : ∀ (todo done : Text) (rest : Mem),
    Ctype.mapLoop sg f todo.length (done.map some ++ (todo.map some ++ rest)) done.length =
      if ∃ c ∈ todo, Foreign sg c then .ub
      else Str.mapLoop (fun x _ => f x) todo.length (done.map some ++ (todo.map some ++ rest)) done.length
  | [], done, rest => by simp [Str.mapLoop, Ctype.mapLoop]
  | x :: todo, done, rest => by
    have hg : getc (done.map some ++ ((x :: todo).map some ++ rest)) done.length = .ok x := by
      have := getc_mid (done.map some) (todo.map some ++ rest) x (i := done.length) (by simp)
      simpa using this
    have hp : putc (done.map some ++ ((x :: todo).map some ++ rest)) done.length (f x) =
        .ok ((done ++ [f x]).map some ++ (todo.map some ++ rest)) := by
      have := putc_mid (done.map some) (todo.map some ++ rest) (some x) (f x) (i := done.length) (by simp)
      simpa using this
    have ih := cmapLoop_eq (sg := sg) (f := f) todo (done ++ [f x]) rest
    simp only [List.length_append, List.length_cons, List.length_nil] at ih
    simp only [List.length_cons, Str.mapLoop, Ctype.mapLoop, hg, hp, bind_ok]
    by_cases hx : Foreign sg x
    · rw [check_ub hx, bind_ub, if_pos ⟨x, List.mem_cons_self .., hx⟩]
    · rw [check_ok hx, bind_ok]
      rw [ih]
      simp only [List.mem_cons, exists_eq_or_imp, hx, false_or]

theorem cmap_eq {sg : Bool} {f : UInt8 → UInt8} {v : Arr} {t : Text} (h : IsStr v t) :
    Ctype.mapLoop sg f v.len v.mem 0 = if ∃ c ∈ t, Foreign sg c then .ub else Str.mapLoop (fun x _ => f x) v.len v.mem 0 := by
  obtain ⟨rest, e, -⟩ := h.split
  have := cmapLoop_eq (sg := sg) (f := f) t [] (some 0 :: rest)
  simpa only [List.map_nil, List.nil_append, List.length_nil, ← e, ← h.len] using this

theorem numChar_iff (c : UInt8) : (!isdigit c && c != 46) = false ↔ NumChar c := by
  simp only [isdigit, NumChar, Bool.and_eq_false_iff, Bool.not_eq_false', Bool.and_eq_true, decide_eq_true_iff, bne_eq_false_iff_eq]

theorem foreignFirst_cons {sg : Bool} {x : UInt8} {t : Text} :
    ForeignFirst sg (x :: t) ↔ Foreign sg x ∨ NumChar x ∧ ForeignFirst sg t := by
  constructor
  · rintro ⟨a, c, b, e, ha, hc⟩
    cases a with
    | nil =>
      rw [List.nil_append, List.cons.injEq] at e
      exact .inl (e.1 ▸ hc)
    | cons y a =>
      rw [List.cons_append, List.cons.injEq] at e
      exact .inr ⟨e.1 ▸ ha y (List.mem_cons_self ..), a, c, b, e.2, fun z hz => ha z (List.mem_cons_of_mem _ hz), hc⟩
  · rintro (h | ⟨h, a, c, b, rfl, ha, hc⟩)
    · exact ⟨[], x, t, rfl, by simp, h⟩
    · refine ⟨x :: a, c, b, rfl, fun z hz => ?_, hc⟩
      rcases List.mem_cons.1 hz with rfl | hz
      · exact h
      · exact ha z hz

theorem numChar_ascii {sg : Bool} {c : UInt8} (h : NumChar c) : ¬ Foreign sg c := by
  rintro ⟨-, h1, -⟩
  rcases h with ⟨-, h⟩ | rfl
  · exact absurd (UInt8.le_trans h1 h) (by decide)
  · exact absurd h1 (by decide)

open Classical in
theorem cnumericLoop_eq {sg : Bool} {m : Mem} {t : Text} (h : scanZ m = .ok t) : ∀ (k i : Nat), i + k ≤ t.length →
    Ctype.numericLoop sg m k i = if ForeignFirst sg ((t.drop i).take k) then .ub else Str.numericLoop m k i
  | 0, i, _ => by
    rw [if_neg (by rintro ⟨a, c, b, e, -⟩; simp at e)]
    rfl
  | k + 1, i, hi => by
    have hi' : i < t.length := by omega
    rw [Ctype.numericLoop, Str.numericLoop, getc_text h hi', bind_ok, bind_ok, List.drop_eq_getElem_cons hi', List.take_succ_cons, foreignFirst_cons,
      cnumericLoop_eq h k (i + 1) (by omega)]
    by_cases hf : Foreign sg t[i]
    · rw [check_ub hf, bind_ub, if_pos (.inl hf)]
    · rw [check_ok hf, bind_ok]
      by_cases hn : NumChar t[i]
      · rw [(numChar_iff _).2 hn]
        simp only [hf, hn, true_and, false_or, Bool.false_eq_true, if_false]
      · have : (!isdigit t[i] && t[i] != 46) = true := by
          cases hb : (!isdigit t[i] && t[i] != 46) with
          | true => rfl
          | false => exact absurd ((numChar_iff _).1 hb) hn
        simp only [this, if_true, hf, hn, false_and, or_self, if_false]

theorem cvalidLoop_eq {sg : Bool} {z : Mem} (hz : ∀ c : UInt8, some c ∈ z → ¬ Foreign sg c) : ∀ (fs : List UInt8) (i : Nat),
    Ctype.validLoop sg z fs i = DT.validLoop z fs i
  | [], _ => rfl
  | f :: fs, i => by
    rw [Ctype.validLoop, DT.validLoop, cvalidLoop_eq hz fs (i + 1)]
    split
    · cases hg : getc z i with
      | ok c =>
        have hc : some c ∈ z := by
          unfold getc at hg
          cases hzi : z[i]? with
          | none => simp [hzi] at hg
          | some b =>
            cases b with
            | none => simp [hzi] at hg
            | some b =>
              simp [hzi] at hg
              exact hg ▸ List.mem_of_getElem? hzi
        simp only [bind_ok, check_ok (hz c hc)]
      | _ => rfl
    · rfl

theorem cvalidLoop_ub {sg : Bool} {z : Mem} : ∀ (fs : List UInt8) (i j : Nat) (hj : j < fs.length), Checked fs[j] →
    (∃ c, z[i + j]? = some (some c) ∧ Foreign sg c) →
    (∀ k, (hk : k < j) → Checked (fs[k]'(by omega)) → ∃ c, z[i + k]? = some (some c) ∧ DT.isDigit c = true) → Ctype.validLoop sg z fs i = .ub
  | [], _, _, hj, _, _, _ => absurd hj (by simp)
  | f :: fs, i, 0, _, hc, ⟨c, hn, hf⟩, _ => by
    have hc' : f ≠ 84 ∧ DT.isAlpha f = true := hc
    rw [Ctype.validLoop, if_pos hc']
    simp only [Nat.add_zero] at hn
    simp [getc, hn, check_ub hf]
  | f :: fs, i, j + 1, hj, hc, hn, H => by
    have ih := cvalidLoop_ub (sg := sg) fs (i + 1) j (by simpa using hj) (by simpa using hc) (by rwa [show i + 1 + j = i + (j + 1) by omega])
      (fun k hk hck => by
        have := H (k + 1) (by omega) (by simpa using hck)
        rwa [show i + (k + 1) = i + 1 + k by omega] at this)
    rw [Ctype.validLoop, ih]
    by_cases hf : f ≠ 84 ∧ DT.isAlpha f = true
    · rw [if_pos hf]
      obtain ⟨c, h1, h2⟩ := H 0 (by omega) hf
      simp only [Nat.add_zero] at h1
      have hd : isdigit c = true := h2
      simp [getc, h1, h2, check_ok (ascii_class sg c (.inr (.inr hd)))]
    · rw [if_neg hf]

/-! ### The claims -/

/-- **C119** (partial: only on machines with unsigned `char`, or for texts without characters of the codes 128 to 254.)  All calls of `isspace`, `ispunct`, `isdigit`,
`toupper` and `tolower` are then defined, and the functions are those of C26, C34, C46 to C48 and C54. -/
theorem C119_defined_partial {sg : Bool} {v : Arr} {t : Text} (h : IsStr v t) (ht : ∀ c ∈ t, ¬ Foreign sg c) {k : Nat} (hk : t.length < k) :
    Ctype.toUppercase sg v = Str.toUppercase v ∧ Ctype.toLowercase sg v = Str.toLowercase v ∧
    Ctype.isNumeric sg v = Str.isNumeric v ∧
    ((∃ c ∈ t, Blank c = false) → Ctype.strip sg k v = Str.strip k v) ∧
    ((∃ c ∈ t, (Blank c || Punct c) = false) → Ctype.stripPunct sg k v = Str.stripPunct k v) := by
  have hno : ¬ ∃ c ∈ t, Foreign sg c := fun ⟨c, hc, hf⟩ => ht c hc hf
  refine ⟨?_, ?_, ?_, fun hb => ?_, fun hb => ?_⟩
  · rw [Ctype.toUppercase, cmap_eq h, if_neg hno]; rfl
  · rw [Ctype.toLowercase, cmap_eq h, if_neg hno]; rfl
  · rw [Ctype.isNumeric, h.len, cnumericLoop_eq h.text _ _ (by omega), if_neg, Str.isNumeric, h.len]
    rintro ⟨a, c, b, e, -, hf⟩
    refine ht c ?_ hf
    simp only [List.drop_zero, List.take_length] at e
    rw [e]
    simp
  · have e : isspace = Blank := funext isspace_eq
    obtain ⟨m, h1, h2⟩ := exists_strip Blank hb
    have hm : ∀ c ∈ m, c ∈ t := by
      obtain ⟨a, b, rfl, -⟩ := h2
      intro c hc
      simp [hc]
    rw [Ctype.strip, Str.strip, e, cstripBy_eq (fun c hc => ascii_class sg c (.inl (by rw [isspace_eq]; exact hc))) (by decide) h h2 h1 hk, if_neg]
    rintro (hf | hf)
    · exact ht _ (hm _ (List.head_mem h1)) hf
    · exact ht _ (hm _ (List.getLast_mem h1)) hf
  · have e : (fun x => isspace x || ispunct x) = fun c => Blank c || Punct c :=
      funext fun c => by rw [isspace_eq, ispunct_eq]
    obtain ⟨m, h1, h2⟩ := exists_strip _ hb
    have hm : ∀ c ∈ m, c ∈ t := by
      obtain ⟨a, b, rfl, -⟩ := h2
      intro c hc
      simp [hc]
    rw [Ctype.stripPunct, Str.stripPunct, e, cstripBy_eq (fun c hc => ascii_class sg c (by
      rw [isspace_eq, ispunct_eq]
      rcases Bool.or_eq_true_iff.1 hc with hc | hc
      · exact .inl hc
      · exact .inr (.inl hc))) (by decide) h h2 h1 hk, if_neg]
    rintro (hf | hf)
    · exact ht _ (hm _ (List.head_mem h1)) hf
    · exact ht _ (hm _ (List.getLast_mem h1)) hf

/-- **C119** (partial, as before.)  The conversions from text and the checks of time stamps. -/
theorem C119_defined_texts_partial {sg : Bool} {z : Mem} {t : Text} (h : CStr z t) (ht : ∀ c : UInt8, some c ∈ z → ¬ Foreign sg c) :
    (∀ T, Ctype.strToT sg T z = Conv.strToT T z) ∧ (∀ f, Ctype.strToF sg f z = Conv.strToF f z) ∧
    (∀ E n, n ≤ t.length → Ctype.isNumericZ E sg z n = Str.isNumericZ E z n) ∧
    Ctype.isValidText sg z = DT.isValidText z ∧ Ctype.isValidIso sg z = DT.isValidIso z ∧ Ctype.isValidIsoExt sg z = DT.isValidIsoExt z := by
  obtain ⟨⟨rest, hz⟩, -⟩ := scanZ_eq_ok.1 h.text
  have hf : ∀ n, ¬ ForeignFirst sg ((t.drop 0).take n) := by
    rintro n ⟨a, c, b, e, -, hf⟩
    refine ht c ?_ hf
    rw [hz]
    refine List.mem_append_left _ (List.mem_map_of_mem ?_)
    refine List.mem_of_mem_take (i := n) ?_
    rw [List.drop_zero] at e
    rw [e]
    simp
  have hn : ∀ n, n ≤ t.length → Ctype.numericLoop sg z n 0 = Str.numericLoop z n 0 := fun n hn => by
    rw [cnumericLoop_eq h.text _ _ (by omega), if_neg (hf n)]
  refine ⟨fun T => ?_, fun f => ?_, fun E n hl => ?_, cvalidLoop_eq ht _ _, cvalidLoop_eq ht _ _, cvalidLoop_eq ht _ _⟩
  · simp only [Ctype.strToT, Conv.strToT, Str.createStatic, strlen_ok h.text, bind_ok, Ctype.isNumeric, Str.isNumeric, hn _ (Nat.le_refl _)]
  · simp only [Ctype.strToF, Conv.strToF, Str.createStatic, strlen_ok h.text, bind_ok, Ctype.isNumeric, Str.isNumeric, hn _ (Nat.le_refl _)]
  · simp only [Ctype.isNumericZ, Str.isNumericZ, hn n hl]

/-- **C119** (the defect) Where `char` is signed, changing the case of a text with a character of a code from 128 to 254 is undefined. -/
theorem C119_case_undefined {v : Arr} {t : Text} (h : IsStr v t) {c : UInt8} (hc : c ∈ t) (hf : 128 ≤ c ∧ c ≠ 255) :
    Ctype.toUppercase true v = .ub ∧ Ctype.toLowercase true v = .ub := by
  have hex : ∃ c ∈ t, Foreign true c := ⟨c, hc, rfl, hf⟩
  constructor
  · rw [Ctype.toUppercase, cmap_eq h, if_pos hex, bind_ub]
  · rw [Ctype.toLowercase, cmap_eq h, if_pos hex, bind_ub]

/-- **C119** (the defect) Stripping is undefined if what is to be kept begins or ends with such a character. -/
theorem C119_strip_undefined {v : Arr} {t m : Text} (h : IsStr v t) (hm : m ≠ []) {k : Nat} (hk : t.length < k)
    (hf : Foreign true (m.head hm) ∨ Foreign true (m.getLast hm)) :
    (IsStrip Blank t m → Ctype.strip true k v = .ub) ∧ (IsStrip (fun c => Blank c || Punct c) t m → Ctype.stripPunct true k v = .ub) := by
  constructor
  · intro hs
    have e : isspace = Blank := funext isspace_eq
    rw [Ctype.strip, e, cstripBy_eq (fun c hc => ascii_class true c (.inl (by rw [isspace_eq]; exact hc))) (by decide) h hs hm hk, if_pos hf]
  · intro hs
    have e : (fun x => isspace x || ispunct x) = fun c => Blank c || Punct c :=
      funext fun c => by rw [isspace_eq, ispunct_eq]
    rw [Ctype.stripPunct, e, cstripBy_eq (fun c hc => ascii_class true c (by
      rw [isspace_eq, ispunct_eq]
      rcases Bool.or_eq_true_iff.1 hc with hc | hc
      · exact .inl hc
      · exact .inr (.inl hc))) (by decide) h hs hm hk, if_pos hf]

/-- **C119** (the defect) Asking whether a text is a number, and converting it to one, is undefined exactly if the first character that is neither a digit
nor a dot is such a character. -/
theorem C119_numeric_undefined {z : Mem} {t : Text} (h : CStr z t) :
    (∀ T, Ctype.strToT true T z = .ub ↔ ForeignFirst true t) ∧ (∀ f, Ctype.strToF true f z = .ub ↔ ForeignFirst true t) ∧
    (∀ v, IsStr v t → (Ctype.isNumeric true v = .ub ↔ ForeignFirst true t)) := by
  have hn : Ctype.numericLoop true z t.length 0 = .ub ↔ ForeignFirst true t := by
    rw [cnumericLoop_eq h.text _ _ (by omega), List.drop_zero, List.take_length, numericLoop_ok h.text _ _ (by omega)]
    split <;> simp_all
  have hok : ¬ ForeignFirst true t → ∃ b, Ctype.numericLoop true z t.length 0 = .ok b := by
    intro hf
    rw [cnumericLoop_eq h.text _ _ (by omega), List.drop_zero, List.take_length, numericLoop_ok h.text _ _ (by omega), if_neg hf]
    exact ⟨_, rfl⟩
  refine ⟨fun T => ?_, fun f => ?_, fun v hv => ?_⟩
  · simp only [Ctype.strToT, Str.createStatic, strlen_ok h.text, bind_ok, Ctype.isNumeric]
    by_cases hf : ForeignFirst true t
    · simp only [hn.2 hf, bind_ub, hf]
    · obtain ⟨b, hb⟩ := hok hf
      simp only [hb, bind_ok, h.text, hf, iff_false]
      cases b <;> simp
  · simp only [Ctype.strToF, Str.createStatic, strlen_ok h.text, bind_ok, Ctype.isNumeric]
    by_cases hf : ForeignFirst true t
    · simp only [hn.2 hf, bind_ub, hf]
    · obtain ⟨b, hb⟩ := hok hf
      simp only [hb, bind_ok, h.text, hf, iff_false]
      cases b <;> simp
  · rw [Ctype.isNumeric, hv.len, cnumericLoop_eq hv.text _ _ (by omega), List.drop_zero, List.take_length, numericLoop_ok hv.text _ _ (by omega)]
    split <;> simp_all

/-- **C119** (the defect) A text with digits at the first digit positions of the format and such a character at the next one: the check is undefined. -/
theorem C119_stamp_undefined {z : Mem} {j : Nat} {c : UInt8} (hc : z[j]? = some (some c)) (hf : Foreign true c) :
    (j ∈ digitPos → (∀ i ∈ digitPos, i < j → ∃ d, z[i]? = some (some d) ∧ IsDigit d) →
      Ctype.isValidText true z = .ub ∧ Ctype.isValidIsoExt true z = .ub) ∧
    (j ∈ digitPosIso → (∀ i ∈ digitPosIso, i < j → ∃ d, z[i]? = some (some d) ∧ IsDigit d) → Ctype.isValidIso true z = .ub) := by
  have key : ∀ (fs : List UInt8) (pos : List Nat), (∀ j, (h : j < fs.length) → (Checked fs[j] ↔ j ∈ pos)) → (∀ j ∈ pos, j < fs.length) →
      j ∈ pos → (∀ i ∈ pos, i < j → ∃ d, z[i]? = some (some d) ∧ IsDigit d) → Ctype.validLoop true z fs 0 = .ub := by
    intro fs pos h1 h2 hj H
    refine cvalidLoop_ub fs 0 j (h2 j hj) ((h1 j (h2 j hj)).2 hj) ⟨c, by rw [Nat.zero_add]; exact hc, hf⟩ (fun k hk hck => ?_)
    obtain ⟨d, e, hd⟩ := H k ((h1 k (by have := h2 j hj; omega)).1 hck) hk
    exact ⟨d, by rw [Nat.zero_add]; exact e, isDigit_iff.2 hd⟩
  exact ⟨fun hj H => ⟨key _ _ checked_text (by decide) hj H, key _ _ checked_isoExt (by decide) hj H⟩,
    fun hj H => key _ _ checked_iso (by decide) hj H⟩

/-- Example: `"é "` in UTF-8. -/
example : Ctype.strip true 9 (strObj [195, 169, 32] 0) = .ub ∧ (Ctype.strip false 9 (strObj [195, 169, 32] 0)).mapOk Str.z = .ok (.ok [195, 169]) ∧
    Ctype.toUppercase true (strObj [97, 195, 169] 0) = .ub ∧ (Ctype.toUppercase true (strObj [97, 32] 0)).mapOk Str.z = .ok (.ok [65, 32]) := by
  decide +kernel

/-- Example: `"12é"` as a number; after another character that is not a digit it would not be looked at. -/
example : Ctype.strToT true ⟨true, 32⟩ (zstr [49, 50, 195, 169]) = .ub ∧ Ctype.strToT true ⟨true, 32⟩ (zstr [49, 45, 195, 169]) = .ok 0 ∧
    ForeignFirst true [49, 50, 195, 169] :=
  ⟨by decide +kernel, by decide +kernel, [49, 50], 195, [169], rfl, by simp [NumChar], by decide⟩

/-- Example: a time stamp with a no-break space instead of a digit. -/
example : Ctype.isValidText true (zstr [50, 48, 194, 160]) = .ub ∧ Ctype.isValidText false (zstr [50, 48, 194, 160]) = .ok false := by decide +kernel

end Vita
