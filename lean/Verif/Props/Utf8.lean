import Verif.Props.StrEdit
import Verif.Props.StrQuery
import Verif.Props.Occurrences
import Verif.Props.PathText
import Verif.Props.AliasText
/-!
# C142: texts in UTF-8

The library knows bytes only.  Here texts are sequences of characters in UTF-8; `utf8` uses the encoding of Lean's own strings (`String.utf8EncodeChar`).
-/

namespace Vita
open Out Spec

namespace Spec

/-- The bytes of a sequence of characters in UTF-8. -/
def utf8 (cs : List Char) : Text := cs.flatMap String.utf8EncodeChar

/-- `a` is what stands before the first occurrence of `s` in `t`, `b` what stands behind it. -/
def FirstAt (t s a b : List Char) : Prop := t = a ++ s ++ b ∧ ∀ a' b', t = a' ++ s ++ b' → a.length ≤ a'.length

/-- `ps` are the parts of `t` between the occurrences of `s`, found from left to right. -/
inductive PartsOf (s : List Char) : List Char → List (List Char) → Prop
  | last {t : List Char} : ¬ s <:+: t → PartsOf s t [t]
  | cut {t a b : List Char} {ps : List (List Char)} : FirstAt t s a b → PartsOf s b ps → PartsOf s t (a :: ps)

/-- `m` is `t` without the longest runs of characters of the set `set` at its beginning and end. -/
def StripOf (set t m : List Char) : Prop :=
  ∃ a b, t = a ++ m ++ b ∧ (∀ c ∈ a, c ∈ set) ∧ (∀ c ∈ b, c ∈ set) ∧ (∀ c, m.head? = some c → c ∉ set) ∧ ∀ c, m.getLast? = some c → c ∉ set

/-- The characters that C calls white space. -/
def blanks : List Char := [' ', '\t', '\n', Char.ofNat 11, Char.ofNat 12, '\r']

end Spec

/-! ### The encoding -/

theorem utf8_nil : utf8 [] = [] := rfl

theorem utf8_cons (c : Char) (cs : List Char) : utf8 (c :: cs) = String.utf8EncodeChar c ++ utf8 cs := rfl

theorem utf8_append (a b : List Char) : utf8 (a ++ b) = utf8 a ++ utf8 b := List.flatMap_append

theorem enc_pos (c : Char) : 0 < (String.utf8EncodeChar c).length := by simp [c.utf8Size_pos]

theorem utf8_ne_nil {s : List Char} (h : s ≠ []) : utf8 s ≠ [] := by
  cases s with
  | nil => exact absurd rfl h
  | cons c s =>
    rw [utf8_cons]
    intro hh
    have := congrArg List.length hh
    have := enc_pos c
    simp at *

theorem enc_prefix_code {c d : Char} {x y : Text} (h : String.utf8EncodeChar c ++ x = String.utf8EncodeChar d ++ y) : c = d ∧ x = y := by
  have hc := ByteArray.utf8DecodeChar?_utf8EncodeChar_append (b := x.toByteArray) (c := c)
  have hd := ByteArray.utf8DecodeChar?_utf8EncodeChar_append (b := y.toByteArray) (c := d)
  rw [← List.toByteArray_append] at hc hd
  rw [h, hd] at hc
  injection hc with hc
  subst hc
  exact ⟨rfl, List.append_cancel_left h⟩

theorem utf8_prefix : ∀ {ds cs : List Char} {b : Text}, utf8 cs = utf8 ds ++ b → ∃ es, cs = ds ++ es ∧ b = utf8 es
  | [], cs, b, h => ⟨cs, rfl, h.symm⟩
  | d :: ds, [], b, h => by
    have := utf8_ne_nil (s := d :: ds) (by simp)
    rw [utf8_nil] at h
    exact absurd (List.append_eq_nil_iff.1 h.symm).1 this
  | d :: ds, c :: cs, b, h => by
    rw [utf8_cons, utf8_cons, List.append_assoc] at h
    obtain ⟨rfl, h2⟩ := enc_prefix_code h
    obtain ⟨es, rfl, e⟩ := utf8_prefix h2
    exact ⟨es, rfl, e⟩

theorem utf8_inj {a b : List Char} (h : utf8 a = utf8 b) : a = b := by
  obtain ⟨es, rfl, e⟩ := utf8_prefix (b := []) (by rw [h, List.append_nil] : utf8 a = utf8 b ++ [])
  cases es with
  | nil => simp
  | cons c es => exact absurd e.symm (utf8_ne_nil (by simp))

/-- A text in UTF-8 can only be taken apart where a character begins. -/
theorem utf8_split : ∀ {cs : List Char} {a x : Text}, utf8 cs = a ++ x → (∀ b, x.head? = some b → b.IsUTF8FirstByte) →
    ∃ c1 c2, cs = c1 ++ c2 ∧ utf8 c1 = a ∧ utf8 c2 = x := by
  intro cs
  induction cs with
  | nil =>
    intro a x h _
    obtain ⟨rfl, rfl⟩ := List.append_eq_nil_iff.1 h.symm
    exact ⟨[], [], rfl, rfl, rfl⟩
  | cons c cs ih =>
    intro a x h hx
    by_cases ha : a = []
    · subst ha
      exact ⟨[], c :: cs, rfl, rfl, h⟩
    rw [utf8_cons] at h
    by_cases hl : (String.utf8EncodeChar c).length ≤ a.length
    · obtain ⟨a', rfl⟩ : String.utf8EncodeChar c <+: a := List.prefix_of_prefix_length_le (List.prefix_append _ _) (h ▸ List.prefix_append a x) hl
      rw [List.append_assoc] at h
      obtain ⟨c1, c2, rfl, h1, h2⟩ := ih (List.append_cancel_left h) hx
      exact ⟨c :: c1, c2, rfl, by rw [utf8_cons, h1], h2⟩
    · exfalso
      have hl' : a.length < (String.utf8EncodeChar c).length := by omega
      have e : x.head? = some (String.utf8EncodeChar c)[a.length] := by
        have e1 : (a ++ x)[a.length]? = x.head? := by rw [List.getElem?_append_right (Nat.le_refl _), Nat.sub_self, List.head?_eq_getElem?]
        rw [← e1, ← h, List.getElem?_append_left hl', List.getElem?_eq_getElem hl']
      have := UInt8.isUTF8FirstByte_getElem_utf8EncodeChar.1 (hx _ e)
      exact ha (List.length_eq_zero_iff.1 this)

theorem utf8_head {s : List Char} {x : Text} (hs : s ≠ []) (b : UInt8) (h : (utf8 s ++ x).head? = some b) : b.IsUTF8FirstByte := by
  cases s with
  | nil => exact absurd rfl hs
  | cons c s =>
    have hp := enc_pos c
    rw [utf8_cons] at h
    have e : b = (String.utf8EncodeChar c)[0] := by
      rw [List.append_assoc, List.head?_eq_getElem?, List.getElem?_append_left hp, List.getElem?_eq_getElem hp] at h
      exact (Option.some.inj h).symm
    rw [e]
    exact UInt8.isUTF8FirstByte_getElem_zero_utf8EncodeChar

theorem utf8_middle {t s : List Char} (hs : s ≠ []) {a b : Text} (h : utf8 t = a ++ utf8 s ++ b) : ∃ a' b', t = a' ++ s ++ b' ∧ a = utf8 a' ∧ b = utf8 b' := by
  rw [List.append_assoc] at h
  obtain ⟨c1, c2, rfl, h1, h2⟩ := utf8_split h (utf8_head hs)
  obtain ⟨es, rfl, e⟩ := utf8_prefix h2
  exact ⟨c1, es, by simp, h1.symm, e⟩

/-! ### Occurrences -/

/-- **C142** The bytes of `s` occur in those of `t` exactly where the characters of `s` occur among those of `t`. -/
theorem C142_occurs {t s : List Char} (hs : s ≠ []) (i : Nat) : OccursAt (utf8 t) (utf8 s) i ↔ ∃ a b, t = a ++ s ++ b ∧ i = (utf8 a).length := by
  constructor
  · rintro ⟨a, b, h, rfl⟩
    obtain ⟨a', b', e, rfl, rfl⟩ := utf8_middle hs h
    exact ⟨a', b', e, rfl⟩
  · rintro ⟨a, b, rfl, rfl⟩
    exact ⟨utf8 a, utf8 b, by simp [utf8_append], rfl⟩

theorem utf8_length_mono {a b : List Char} (h : a <+: b) : (utf8 a).length ≤ (utf8 b).length := by
  obtain ⟨c, rfl⟩ := h
  simp [utf8_append]

/-- **C142** The first occurrence of the bytes is the first occurrence of the characters. -/
theorem C142_first {t s : List Char} (hs : s ≠ []) (i : Nat) : IsFirst (utf8 t) (utf8 s) i ↔ ∃ a b, FirstAt t s a b ∧ i = (utf8 a).length := by
  constructor
  · rintro ⟨h1, h2⟩
    obtain ⟨a, b, e, rfl⟩ := (C142_occurs hs i).1 h1
    refine ⟨a, b, ⟨e, fun a' b' e' => ?_⟩, rfl⟩
    by_contra hc
    have hp : a' <+: a := List.prefix_of_prefix_length_le (l₃ := t) ⟨s ++ b', by simp [e']⟩ ⟨s ++ b, by simp [e]⟩ (by omega)
    obtain ⟨c, rfl⟩ := hp
    have hc0 : c ≠ [] := by rintro rfl; simp at hc
    refine h2 (utf8 a').length ?_ ((C142_occurs hs _).2 ⟨a', b', e', rfl⟩)
    have := List.length_pos_iff.2 (utf8_ne_nil hc0)
    simp [utf8_append]
    omega
  · rintro ⟨a, b, ⟨e, h⟩, rfl⟩
    refine ⟨(C142_occurs hs _).2 ⟨a, b, e, rfl⟩, fun j hj ho => ?_⟩
    obtain ⟨a', b', e', rfl⟩ := (C142_occurs hs j).1 ho
    have hp : a <+: a' := List.prefix_of_prefix_length_le (l₃ := t) ⟨s ++ b, by simp [e]⟩ ⟨s ++ b', by simp [e']⟩ (h a' b' e')
    have := utf8_length_mono hp
    omega

theorem utf8_occurs_iff {t s : List Char} (hs : s ≠ []) : Occurs (utf8 t) (utf8 s) ↔ s <:+: t := by
  constructor
  · rintro ⟨i, h⟩
    obtain ⟨a, b, e, -⟩ := (C142_occurs hs i).1 h
    exact ⟨a, b, e.symm⟩
  · rintro ⟨a, b, e⟩
    exact ⟨_, (C142_occurs hs _).2 ⟨a, b, e.symm, rfl⟩⟩

/-! ### Editing at the first occurrence -/

theorem take_drop_utf8 (a s b : List Char) : (utf8 (a ++ s ++ b)).take (utf8 a).length = utf8 a ∧ (utf8 (a ++ s ++ b)).drop (utf8 a).length = utf8 (s ++ b) ∧
    (utf8 (a ++ s ++ b)).drop ((utf8 a).length + (utf8 s).length) = utf8 b ∧ (utf8 (a ++ s ++ b)).take ((utf8 a).length + (utf8 s).length) = utf8 (a ++ s) := by
  refine ⟨?_, ?_, ?_, ?_⟩
  · rw [List.append_assoc, utf8_append, List.take_left]
  · rw [List.append_assoc, utf8_append, List.drop_left]
  · rw [utf8_append, utf8_append, ← List.length_append, List.drop_left]
  · rw [utf8_append, utf8_append, ← List.length_append, List.take_left]

/-- **C142** The functions that edit at the first occurrence of a text do the same with the characters: `t` is `a`, the first `s`, and `b`. -/
theorem C142_edits {E : Env} {v : Arr} {t s x a b : List Char} (h : IsStr v (utf8 t)) {sub z : Mem} (hs : CStr sub (utf8 s)) (hz : CStr z (utf8 x)) (hs0 : s ≠ [])
    (hx0 : x ≠ []) (hf : FirstAt t s a b) :
    OkOr E ((utf8 t).length + (utf8 x).length + 1) (Str.insertBefore E v sub z) (fun v' => IsStr v' (utf8 (a ++ x ++ s ++ b))) ∧
    (b ≠ [] ∨ E.debug = false → OkOr E ((utf8 t).length + (utf8 x).length + 1) (Str.insertAfter E v sub z) fun v' => IsStr v' (utf8 (a ++ s ++ x ++ b))) ∧
    OkOr E ((utf8 t).length + (utf8 x).length + 1) (Str.replaceFirst E v sub z) (fun v' => IsStr v' (utf8 (a ++ x ++ b))) ∧
    (∃ v', Str.removeFirst v sub = .ok (v', true) ∧ IsStr v' (utf8 (a ++ b))) ∧
    (∀ sr : Option Arr, (∀ y, sr = some y → ∃ u, IsStr y u) → a ≠ [] →
      OkOr E (capOf sr + (utf8 a).length + 56) (Str.popGetFirst E sr v sub) fun q => ∃ y, q.1 = some y ∧ IsStr y (utf8 a) ∧ IsStr q.2 (utf8 b)) := by
  have hi : IsFirst (utf8 t) (utf8 s) (utf8 a).length := (C142_first hs0 _).2 ⟨a, b, hf, rfl⟩
  obtain ⟨rfl, -⟩ := hf
  obtain ⟨e1, e2, e3, e4⟩ := take_drop_utf8 a s b
  have n0 := utf8_ne_nil hs0
  refine ⟨?_, fun hb => ?_, ?_, ?_, fun sr hsr ha => ?_⟩
  · have := C18_insert_before (E := E) h hs hz n0 hi
    rw [e1, e2] at this
    simpa [utf8_append] using this
  · have := C18_insert_after_partial (E := E) h hs hz hi (hb.imp_left fun hb => by
      have := List.length_pos_iff.2 (utf8_ne_nil hb)
      simp only [utf8_append, List.length_append]; omega)
    rw [e4, e3] at this
    simpa [utf8_append] using this
  · have := (C24_replace_first_partial (E := E) h hs hz n0 (utf8_ne_nil hx0)).1 _ hi
    rw [e1, e3] at this
    simpa [utf8_append] using this
  · obtain ⟨v', h1, h2, -⟩ := (C19_remove_first h hs).1 _ hi
    rw [e1, e3] at h2
    exact ⟨v', h1, by simpa [utf8_append] using h2⟩
  · refine (C32_pop_get_first (E := E) h hs n0 hsr hi (List.length_pos_iff.2 (utf8_ne_nil ha))).mono ?_
    rintro q ⟨y, a1, b1, h1, h2, h3, h4, h5⟩
    rw [utf8_append, utf8_append, List.append_assoc, List.append_assoc] at h4
    obtain ⟨rfl, h6⟩ := List.append_inj h4 h5.symm
    have := List.append_cancel_left h6
    subst this
    exact ⟨y, h1, h2, h3⟩

/-! ### All occurrences -/

theorem joinWith_utf8 (s : List Char) : ∀ ps : List (List Char), joinWith (utf8 s) (ps.map utf8) = utf8 (s.intercalate ps)
  | [] => rfl
  | [a] => by simp [joinWith, List.intercalate]
  | a :: b :: l => by
    have ih := joinWith_utf8 s (b :: l)
    simp only [List.map_cons] at ih ⊢
    rw [joinWith, ih]
    simp [List.intercalate, utf8_append]

/-- The pieces of the bytes are the parts of the characters. -/
theorem pieces_utf8 {s : List Char} (hs : s ≠ []) : ∀ (n : Nat) (t : List Char), t.length ≤ n → ∃ ps, pieces (utf8 t) (utf8 s) = ps.map utf8 ∧ PartsOf s t ps := by
  have n0 := utf8_ne_nil hs
  intro n
  induction n with
  | zero =>
    intro t ht
    have : t = [] := List.length_eq_zero_iff.1 (by omega)
    subst this
    have hn : ¬ s <:+: [] := by simpa using hs
    exact ⟨[[]], by rw [pieces_none (mt (utf8_occurs_iff hs).1 hn)]; rfl, .last hn⟩
  | succ n ih =>
    intro t ht
    by_cases ho : s <:+: t
    · obtain ⟨i0, ho'⟩ := (utf8_occurs_iff hs).2 ho
      obtain ⟨i, hi, -⟩ := exists_first ho'
      obtain ⟨a, b, hf, rfl⟩ := (C142_first hs i).1 hi
      have hf' := hf
      obtain ⟨rfl, -⟩ := hf
      have := List.length_pos_iff.2 hs
      simp only [List.length_append] at ht
      obtain ⟨ps, e, hp⟩ := ih b (by omega)
      obtain ⟨e1, -, e3, -⟩ := take_drop_utf8 a s b
      exact ⟨a :: ps, by rw [pieces_first n0 hi, e1, e3, e]; rfl, .cut hf' hp⟩
    · exact ⟨[t], by rw [pieces_none (mt (utf8_occurs_iff hs).1 ho)]; rfl, .last ho⟩

theorem parts_ne_nil {s t : List Char} {ps : List (List Char)} (h : PartsOf s t ps) : ps ≠ [] := by cases h <;> simp

/-- **C142** What the parts are: the text is put together from them, `s` does not occur in any of them, and they are determined. -/
theorem C142_parts {s t : List Char} {ps : List (List Char)} (h : PartsOf s t ps) : s.intercalate ps = t ∧ (s ≠ [] → ∀ p ∈ ps, ¬ s <:+: p) ∧ ∀ qs, PartsOf s t qs → qs = ps := by
  induction h with
  | @last t hn =>
    refine ⟨by simp [List.intercalate], fun _ p hp => by rw [List.mem_singleton.1 hp]; exact hn, fun qs hq => ?_⟩
    cases hq with
    | last _ => rfl
    | cut hf _ => exact absurd ⟨_, _, hf.1.symm⟩ hn
  | @cut t a b ps hf hp ih =>
    obtain ⟨ih1, ih2, ih3⟩ := ih
    refine ⟨?_, fun hs p hm => ?_, fun qs hq => ?_⟩
    · rw [hf.1]
      cases ps with
      | nil => exact absurd rfl (parts_ne_nil hp)
      | cons q ps => rw [← ih1]; simp [List.intercalate]
    · rcases List.mem_cons.1 hm with rfl | hm
      · rintro ⟨x, y, e⟩
        have := hf.2 x (y ++ s ++ b) (by rw [hf.1, ← e]; simp)
        have hl := congrArg List.length e
        have := List.length_pos_iff.2 hs
        simp only [List.length_append] at hl
        omega
      · exact ih2 hs p hm
    · cases hq with
      | last hn => exact absurd ⟨_, _, hf.1.symm⟩ hn
      | @cut _ a' b' qs hf' hq =>
        have h1 := hf.2 _ _ hf'.1
        have h2 := hf'.2 _ _ hf.1
        have e := hf.1.symm.trans hf'.1
        rw [List.append_assoc, List.append_assoc] at e
        obtain ⟨rfl, e2⟩ := List.append_inj e (by omega)
        have := List.append_cancel_left e2
        subst this
        rw [ih3 _ hq]

/-- **C142** `vt_str_replace` puts `x` between the parts that the occurrences of `s` leave. -/
theorem C142_replace {E : Env} {v : Arr} {t s x : List Char} (h : IsStr v (utf8 t)) {sub z : Mem} (hs : CStr sub (utf8 s)) (hz : CStr z (utf8 x)) (hs0 : s ≠ [])
    (hx0 : x ≠ []) {k : Nat} (hk : (utf8 t).length < k) :
    ∃ ps, PartsOf s t ps ∧ OkOr E ((utf8 t).length + (utf8 (x.intercalate ps)).length + 1) (Str.replace E k v sub z) fun v' => IsStr v' (utf8 (x.intercalate ps)) := by
  obtain ⟨ps, e, hp⟩ := pieces_utf8 hs0 _ t (Nat.le_refl _)
  refine ⟨ps, hp, ?_⟩
  have e2 : replaceAll (utf8 t) (utf8 s) (utf8 x) = utf8 (x.intercalate ps) := by
    rw [replaceAll_join (utf8_ne_nil hs0) _ _ _ (Nat.le_refl _), e, joinWith_utf8]
  have := C23_replace (E := E) h hs hz (utf8_ne_nil hs0) (utf8_ne_nil hx0) hk
  rw [e2] at this
  exact this.mono fun v' h => h.1

/-- **C142** `vt_str_split` yields the non-empty parts of the characters (partial as C29: not if the text ends in two empty parts). -/
theorem C142_split_partial {E : Env} {v : Arr} {t s : List Char} (h : IsStr v (utf8 t)) {sep : Mem} (hs : CStr sep (utf8 s)) (hs0 : s ≠ []) (ho : s <:+: t)
    (he : ¬ (s ++ s) <:+ t ∧ t ≠ s) {k : Nat} (hk : (utf8 t).length < k) :
    ∃ ps, PartsOf s t ps ∧ OkOr E ((utf8 t).length + 56) (Str.split E k v sep) fun o => ∃ l, o = some l ∧ List.Forall₂ IsStr l ((ps.filter (· ≠ [])).map utf8) := by
  obtain ⟨ps, e, hp⟩ := pieces_utf8 hs0 _ t (Nat.le_refl _)
  refine ⟨ps, hp, ?_⟩
  have hsp := C29_split_partial (E := E) h hs (utf8_ne_nil hs0) ((utf8_occurs_iff hs0).2 ho) (by
    rw [e]
    rintro ⟨l, e1⟩
    have e1' : (List.map utf8 ps).reverse = [[], []] ++ l.reverse := by rw [← e1]; simp
    have e3 : ∃ l', ps = l' ++ [[], []] := by
      rw [← List.map_reverse] at e1'
      cases hr : ps.reverse with
      | nil => rw [hr] at e1'; simp at e1'
      | cons p qs =>
        cases qs with
        | nil => rw [hr] at e1'; simp at e1'
        | cons q qs =>
          rw [hr] at e1'
          simp only [List.map_cons, List.cons_append, List.nil_append, List.cons.injEq] at e1'
          have hpe : p = [] := by by_contra hc; exact utf8_ne_nil hc e1'.1
          have hqe : q = [] := by by_contra hc; exact utf8_ne_nil hc e1'.2.1
          subst hpe; subst hqe
          refine ⟨qs.reverse, ?_⟩
          rw [← List.reverse_reverse ps, hr]
          simp
    obtain ⟨l', rfl⟩ := e3
    obtain ⟨hj, -⟩ := C142_parts hp
    cases hl : l'.reverse with
    | nil =>
      have : l' = [] := by simpa using hl
      subst this
      exact he.2 (by rw [← hj]; simp [List.intercalate])
    | cons c l2 =>
      have e5 : l' = l2.reverse ++ [c] := by rw [← List.reverse_reverse l', hl]; simp
      refine he.1 ⟨s.intercalate l', ?_⟩
      rw [← hj]
      have : ∀ (m : List (List Char)), m ≠ [] → s.intercalate (m ++ [[], []]) = s.intercalate m ++ (s ++ s) := by
        intro m
        induction m with
        | nil => intro h; exact absurd rfl h
        | cons a m ih =>
          intro _
          cases m with
          | nil => simp [List.intercalate]
          | cons b m =>
            have := ih (by simp)
            simp only [List.cons_append, List.intercalate] at this ⊢
            simp only [List.intersperse_cons_cons, List.flatten_cons] at this ⊢
            rw [this]
            simp
      rw [this l' (by rw [e5]; simp)]) hk
  refine hsp.mono ?_
  rintro o ⟨l, rfl, hl⟩
  refine ⟨l, rfl, ?_⟩
  rw [e] at hl
  have e4 : (ps.map utf8).filter (· ≠ []) = (ps.filter (· ≠ [])).map utf8 := by
    rw [List.filter_map]
    congr 1
    apply List.filter_congr
    intro p _
    by_cases hpe : p = []
    · simp [hpe, utf8_nil]
    · simp [hpe, utf8_ne_nil hpe]
  rw [← e4]
  exact hl

/-- **C142** (partial as C21: non-empty text.) `vt_str_remove_all` leaves characters among which `s` does not occur. -/
theorem C142_remove_all_partial {v : Arr} {t s : List Char} (h : IsStr v (utf8 t)) {z : Mem} (hz : CStr z (utf8 s)) (h0 : s ≠ []) {k : Nat} (hk : (utf8 t).length < k) :
    ∃ v' u, Str.removeAll k v z = .ok v' ∧ IsStr v' (utf8 u) ∧ ¬ s <:+: u ∧ u.Sublist t ∧ (¬ s <:+: t → u = t) := by
  obtain ⟨v', t', h1, h2, -, h3, h4, -, h5⟩ := C21_remove_all_partial h hz (utf8_ne_nil h0) hk
  have key : ∀ {x y : Text}, Deletes (utf8 s) x y → ∀ t, x = utf8 t → ∃ u, y = utf8 u ∧ u.Sublist t := by
    intro x y hd
    induction hd with
    | done x => exact fun t e => ⟨t, e, List.Sublist.refl t⟩
    | step hf _ ih =>
      rintro t rfl
      obtain ⟨a, b, ⟨rfl, -⟩, rfl⟩ := (C142_first h0 _).1 hf
      obtain ⟨e1, -, e3, -⟩ := take_drop_utf8 a s b
      obtain ⟨u, e, hu⟩ := ih (a ++ b) (by rw [splice, e1, e3]; simp [utf8_append])
      refine ⟨u, e, hu.trans ?_⟩
      rw [List.append_assoc]
      exact List.Sublist.append_left (List.sublist_append_right s b) a
  obtain ⟨u, rfl, hu⟩ := key h4 t rfl
  exact ⟨v', u, h1, h2, fun hi => h3 ((utf8_occurs_iff h0).2 hi), hu, fun hn => utf8_inj (h5 fun ho => hn ((utf8_occurs_iff h0).1 ho))⟩

/-! ### Searching, joining, the last occurrence -/

namespace Spec

/-- `a` is what stands before the last occurrence of `s` in `t`, `b` what stands behind it. -/
def LastAt (t s a b : List Char) : Prop := t = a ++ s ++ b ∧ ∀ a' b', t = a' ++ s ++ b' → a'.length ≤ a.length

/-- No two occurrences of `s` in `t` overlap. -/
def Apart (t s : List Char) : Prop := ∀ a b a' b', t = a ++ s ++ b → t = a' ++ s ++ b' → a.length < a'.length → a.length + s.length ≤ a'.length

end Spec

theorem prefix_of_parts {t x y x' y' : List Char} (h : t = x ++ y) (h' : t = x' ++ y') (hl : x.length ≤ x'.length) : x <+: x' :=
  List.prefix_of_prefix_length_le (l₃ := t) ⟨y, h.symm⟩ ⟨y', h'.symm⟩ hl

theorem utf8_length_lt {t x y x' y' : List Char} (h : t = x ++ y) (h' : t = x' ++ y') (hl : x.length < x'.length) : (utf8 x).length < (utf8 x').length := by
  obtain ⟨c, rfl⟩ := prefix_of_parts h h' (by omega)
  have hc : c ≠ [] := by rintro rfl; simp at hl
  have := List.length_pos_iff.2 (utf8_ne_nil hc)
  simp [utf8_append]
  omega

/-- **C142** The last occurrence of the bytes is the last occurrence of the characters, and bytes overlap only if characters do. -/
theorem C142_last {t s : List Char} (hs : s ≠ []) : (∀ a b, LastAt t s a b → IsLast (utf8 t) (utf8 s) (utf8 a).length) ∧ (Apart t s → NoOverlap (utf8 t) (utf8 s)) := by
  refine ⟨?_, fun h i j hi hj hij => ?_⟩
  · rintro a b ⟨e, h⟩
    refine ⟨(C142_occurs hs _).2 ⟨a, b, e, rfl⟩, fun j hj ho => ?_⟩
    obtain ⟨a', b', e', rfl⟩ := (C142_occurs hs j).1 ho
    rw [List.append_assoc] at e e'
    have hp := prefix_of_parts e' e (h a' b' (by rw [e']; simp))
    have := utf8_length_mono hp
    omega
  · obtain ⟨a, b, e, rfl⟩ := (C142_occurs hs i).1 hi
    obtain ⟨a', b', e', rfl⟩ := (C142_occurs hs j).1 hj
    have e1 := e
    have e1' := e'
    rw [List.append_assoc] at e1 e1'
    have hl : a.length < a'.length := by
      by_contra hc
      have := utf8_length_mono (prefix_of_parts e1' e1 (by omega))
      omega
    have := utf8_length_mono (prefix_of_parts e e1' (by simpa using h a b a' b' e e' hl))
    simpa [utf8_append] using this

/-- **C142** (partial as C28: `s` is not longer than the text.) Searching gives the byte position of the first occurrence among the characters, or says that there is none; counting gives one less than the number of parts. -/
theorem C142_find_partial {v : Arr} {t s : List Char} (h : IsStr v (utf8 t)) {sub : Mem} (hs : CStr sub (utf8 s)) (hs0 : s ≠ []) (hl : (utf8 s).length ≤ (utf8 t).length) :
    ((∃ a b, FirstAt t s a b ∧ Str.find v sub = .ok (some (utf8 a).length) ∧ Str.indexFind v sub = .ok ((utf8 a).length : Int)) ∨
      (¬ s <:+: t ∧ Str.find v sub = .ok none ∧ Str.indexFind v sub = .ok (-1))) ∧
    ∀ k, (utf8 t).length < k → ∃ n ps, Str.canFind k v sub = .ok n ∧ PartsOf s t ps ∧ ps.length = n + 1 := by
  refine ⟨?_, fun k hk => ?_⟩
  · rcases C28_find_partial h hs hl with ⟨i, hi, h1, h2⟩ | ⟨hn, h1, h2⟩
    · obtain ⟨a, b, hf, rfl⟩ := (C142_first hs0 i).1 hi
      exact .inl ⟨a, b, hf, h1, h2⟩
    · exact .inr ⟨mt (utf8_occurs_iff hs0).2 hn, h1, h2⟩
  · obtain ⟨n, h1, h2, -⟩ := C27_can_find_counts h hs (utf8_ne_nil hs0) hl hk
    obtain ⟨ps, e, hp⟩ := pieces_utf8 hs0 _ t (Nat.le_refl _)
    refine ⟨n, ps, h1, hp, ?_⟩
    have e2 := congrArg List.length e
    rw [List.length_map] at e2
    rw [← e2, h2]
    exact pieces_length (utf8_ne_nil hs0) _ _ (Nat.le_refl _)

/-- **C142** Joining texts gives the UTF-8 of the joined characters. -/
theorem C142_join {E : Env} {sep : Mem} {s : List Char} (hs : CStr sep (utf8 s)) (h0 : s ≠ []) {ps : List Mem} {ts : List (List Char)}
    (h : List.Forall₂ (fun m t => CStr m (utf8 t)) ps ts) (hne : ∀ x ∈ ts, x ≠ []) (h1 : ts ≠ []) :
    OkOr E ((utf8 (s.intercalate ts)).length + 72) (Str.join E none sep ps) fun v' => IsStr v' (utf8 (s.intercalate ts)) := by
  have h' : List.Forall₂ CStr ps (ts.map utf8) := by
    induction h with
    | nil => exact .nil
    | @cons m t ps ts hm hr ih =>
      refine .cons hm ?_
      by_cases ht : ts = []
      · subst ht; cases hr; exact .nil
      · exact ih (fun x hx => hne x (List.mem_cons_of_mem _ hx)) ht
  have := (C30_join (E := E) hs (utf8_ne_nil h0) h' (by
    intro x hx
    obtain ⟨t, ht, rfl⟩ := List.mem_map.1 hx
    exact utf8_ne_nil (hne t ht)) (by simpa using h1)).2
  rwa [joinWith_utf8] at this

/-- **C142** (partial as C24 and C32: `s` occurs, without overlaps, and for popping not at the end.) Replacing and popping at the last occurrence. -/
theorem C142_last_partial {E : Env} {v : Arr} {t s x a b : List Char} (h : IsStr v (utf8 t)) {sub z : Mem} (hs : CStr sub (utf8 s)) (hz : CStr z (utf8 x)) (hs0 : s ≠ [])
    (hx0 : x ≠ []) (hl : LastAt t s a b) (hap : Apart t s) {k : Nat} (hk : (utf8 t).length < k) :
    OkOr E ((utf8 t).length + (utf8 x).length + 1) (Str.replaceLast E k v sub z) (fun v' => IsStr v' (utf8 (a ++ x ++ b))) ∧
    (b ≠ [] → ∀ sr : Option Arr, (∀ y, sr = some y → ∃ u, IsStr y u) →
      OkOr E (capOf sr + (utf8 t).length + 56) (Str.popGetLast E k sr v sub) fun q => ∃ y, q.1 = some y ∧ IsStr y (utf8 b) ∧ IsStr q.2 (utf8 a)) := by
  obtain ⟨c1, c2⟩ := C142_last (t := t) hs0
  have hi := c1 a b hl
  have hno := c2 hap
  obtain ⟨rfl, -⟩ := hl
  obtain ⟨e1, e2, e3, e4⟩ := take_drop_utf8 a s b
  refine ⟨?_, fun hb sr hsr => ?_⟩
  · have := C24_replace_last_partial (E := E) h hs hz (utf8_ne_nil hs0) (utf8_ne_nil hx0) hno hk hi
    rw [e1, e3] at this
    simpa [utf8_append] using this
  · refine (C32_pop_get_last_partial (E := E) h hs (utf8_ne_nil hs0) hsr hi hno (by
      have := List.length_pos_iff.2 (utf8_ne_nil hb)
      simp only [utf8_append, List.length_append]; omega) hk).mono ?_
    rintro q ⟨y, a1, b1, h1, h2, h3, h4, h5⟩
    rw [utf8_append, utf8_append, List.append_assoc, List.append_assoc] at h4
    obtain ⟨rfl, h6⟩ := List.append_inj h4 h5.symm
    have := List.append_cancel_left h6
    subst this
    exact ⟨y, h1, h2, h3⟩

/-- **C142** (partial as C31: the first `r` of the text is behind the first `l`, with something in between.) The characters between two markers are extracted. -/
theorem C142_between_partial {E : Env} {z zl zr : Mem} {t l r x m y : List Char} (hz : CStr z (utf8 t)) (hzl : CStr zl (utf8 l)) (hzr : CStr zr (utf8 r)) (hl0 : l ≠ []) (hr0 : r ≠ [])
    (hm0 : m ≠ []) (hl : FirstAt t l x (m ++ r ++ y)) (hr : FirstAt t r (x ++ l ++ m) y) {s : Option Arr} (hs : ∀ v, s = some v → ∃ u, IsStr v u) :
    OkOr E ((utf8 t).length + 72) (Str.splitBetween E s z zl zr) fun o => ∃ v, o = some v ∧ IsStr v (utf8 m) := by
  have h1 : IsFirst (utf8 t) (utf8 l) (utf8 x).length := (C142_first hl0 _).2 ⟨_, _, hl, rfl⟩
  have h2 : IsFirst (utf8 t) (utf8 r) (utf8 (x ++ l ++ m)).length := (C142_first hr0 _).2 ⟨_, _, hr, rfl⟩
  obtain ⟨rfl, -⟩ := hl
  obtain ⟨-, -, e3, -⟩ := take_drop_utf8 x l (m ++ r ++ y)
  refine C31_between_partial (m := utf8 m) hz hzl hzr h1 ?_ ?_ (utf8_ne_nil hm0) ?_ hs
  · rw [e3]
    refine ⟨⟨utf8 m, utf8 y, by simp [utf8_append], rfl⟩, fun j hj => ?_⟩
    rintro ⟨p, q, e, rfl⟩
    refine h2.2 ((utf8 (x ++ l)).length + p.length) (by simp only [utf8_append, List.length_append] at hj ⊢; omega) ⟨utf8 (x ++ l) ++ p, q, ?_, by simp⟩
    rw [utf8_append, e]
    simp
  · rw [e3]
    exact ⟨utf8 (r ++ y), by simp [utf8_append]⟩
  · intro j hj
    exact h2.2 j (by simp only [utf8_append, List.length_append] at hj ⊢; omega)

/-! ### Comparing, positions -/

/-- **C142** Comparison is comparison of the characters. -/
theorem C142_compare {v w : Arr} {t u : List Char} (h : IsStr v (utf8 t)) (h' : IsStr w (utf8 u)) {z : Mem} (hz : CStr z (utf8 u)) :
    (∃ r, Str.equals v w = .ok r ∧ (r = true ↔ t = u)) ∧ (∃ r, Str.startsWith v z = .ok r ∧ (r = true ↔ u <+: t)) ∧
    ∃ r, Str.endsWith v z = .ok r ∧ (r = true ↔ u <:+ t) := by
  obtain ⟨r1, a1, a2⟩ := C33_starts_with h hz
  obtain ⟨r2, b1, b2⟩ := C33_ends_with h hz
  refine ⟨⟨_, C33_equals h h', ?_⟩, ⟨r1, a1, a2.trans ?_⟩, ⟨r2, b1, b2.trans ?_⟩⟩
  · rw [decide_eq_true_iff]
    exact ⟨utf8_inj, fun e => by rw [e]⟩
  · constructor
    · rintro ⟨b, e⟩
      obtain ⟨es, rfl, -⟩ := utf8_prefix e.symm
      exact List.prefix_append _ _
    · rintro ⟨b, rfl⟩
      exact ⟨utf8 b, (utf8_append _ _).symm⟩
  · constructor
    · rintro ⟨a, e⟩
      by_cases hu : u = []
      · subst hu; exact List.nil_suffix
      obtain ⟨a', b', rfl, -, e2⟩ := utf8_middle hu (b := []) (by rw [List.append_nil]; exact e.symm)
      have : b' = [] := by by_contra hc; exact utf8_ne_nil hc e2.symm
      subst this
      exact ⟨a', by simp⟩
    · rintro ⟨a, rfl⟩
      exact ⟨utf8 a, (utf8_append _ _).symm⟩

/-- **C142** What is inserted at a byte position must go between two characters; anywhere else the result is not UTF-8 at all. -/
theorem C142_boundary {t x : List Char} (hx : x ≠ []) {i : Nat} (hi : i ≤ (utf8 t).length) :
    (∃ u, (utf8 t).take i ++ utf8 x ++ (utf8 t).drop i = utf8 u) ↔ ∃ a b, t = a ++ b ∧ i = (utf8 a).length := by
  constructor
  · rintro ⟨u, h⟩
    obtain ⟨a, b, -, e1, e2⟩ := utf8_middle hx h.symm
    refine ⟨a, b, utf8_inj ?_, ?_⟩
    · rw [utf8_append, ← e1, ← e2, List.take_append_drop]
    · rw [← e1, List.length_take]; omega
  · rintro ⟨a, b, rfl, rfl⟩
    exact ⟨a ++ x ++ b, by rw [utf8_append a b, List.take_left, List.drop_left]; simp [utf8_append]⟩

/-- **C142** `vt_str_insert` at a byte position inserts the characters if the position is between two characters; otherwise the text is no longer UTF-8. -/
theorem C142_insert {E : Env} {v : Arr} {t x : List Char} (h : IsStr v (utf8 t)) {z : Mem} (hz : CStr z (utf8 x)) (hx : x ≠ []) {i : Nat}
    (hi : i < (utf8 t).length) (ha : (utf8 t).length + (utf8 x).length ≤ v.cap ∨ E.allocOk ((utf8 t).length + (utf8 x).length + 1) = true) :
    ∃ v', Str.insert E v z i = .ok v' ∧ (∀ a b, t = a ++ b → i = (utf8 a).length → IsStr v' (utf8 (a ++ x ++ b))) ∧
      ((∀ a b, t = a ++ b → i ≠ (utf8 a).length) → ∀ u, ¬ IsStr v' (utf8 u)) := by
  obtain ⟨v', h1, h2, -⟩ := C16_insert h hz hi ha
  refine ⟨v', h1, ?_, fun hn u hu => ?_⟩
  · rintro a b rfl rfl
    rw [utf8_append a b, List.take_left, List.drop_left] at h2
    simpa [utf8_append] using h2
  · have e := Out.ok.inj (h2.cstr.text.symm.trans hu.cstr.text)
    obtain ⟨a, b, e1, e2⟩ := (C142_boundary hx (by omega)).1 ⟨u, e⟩
    exact hn a b e1 e2

/-! ### ASCII -/

theorem char_lt (c : Char) : c.toNat < 1114112 := by
  rcases c.valid with h | ⟨-, h⟩
  · exact Nat.lt_trans h (by decide)
  · exact h

theorem enc_cases (c : Char) : (c.toNat < 128 ∧ String.utf8EncodeChar c = [UInt8.ofNat c.toNat]) ∨ (128 ≤ c.toNat ∧ ∀ b ∈ String.utf8EncodeChar c, 128 ≤ b) := by
  have hb := char_lt c
  by_cases h : c.toNat < 128
  · left
    refine ⟨h, ?_⟩
    have h1 : c.toNat ≤ 127 := by omega
    simp only [String.utf8EncodeChar, Char.toNat_val, h1, if_true]
  · right
    refine ⟨by omega, ?_⟩
    have h1 : ¬ c.val.toNat ≤ 127 := by rw [Char.toNat_val]; omega
    intro b hm
    rw [UInt8.le_iff_toNat_le]
    simp only [String.utf8EncodeChar, h1, if_false] at hm
    simp only [Char.toNat_val] at hm
    generalize c.toNat = n at hm hb
    split at hm
    · simp only [List.mem_cons, List.not_mem_nil, or_false] at hm
      rcases hm with rfl | rfl <;> simp [UInt8.toNat_ofNat'] <;> omega
    split at hm
    · simp only [List.mem_cons, List.not_mem_nil, or_false] at hm
      rcases hm with rfl | rfl | rfl <;> simp [UInt8.toNat_ofNat'] <;> omega
    · simp only [List.mem_cons, List.not_mem_nil, or_false] at hm
      rcases hm with rfl | rfl | rfl | rfl <;> simp [UInt8.toNat_ofNat'] <;> omega

/-- The byte of an ASCII character. -/
theorem enc_ascii {c : Char} (h : c.toNat < 128) : String.utf8EncodeChar c = [UInt8.ofNat c.toNat] := by
  rcases enc_cases c with ⟨-, e⟩ | ⟨h', -⟩
  · exact e
  · omega

theorem ascii_byte {c : Char} (h : c.toNat < 128) : (UInt8.ofNat c.toNat).toNat = c.toNat := by
  rw [UInt8.toNat_ofNat']; omega

theorem mem_utf8_ascii {cs : List Char} (hc : ∀ c ∈ cs, c.toNat < 128) (b : UInt8) : b ∈ utf8 cs ↔ ∃ c ∈ cs, b = UInt8.ofNat c.toNat := by
  rw [utf8, List.mem_flatMap]
  constructor
  · rintro ⟨c, hm, hb⟩
    rw [enc_ascii (hc c hm)] at hb
    exact ⟨c, hm, by simpa using hb⟩
  · rintro ⟨c, hm, rfl⟩
    exact ⟨c, hm, by rw [enc_ascii (hc c hm)]; simp⟩

/-- An ASCII byte is in the encoding of a set of ASCII characters exactly if its character is in the set. -/
theorem ascii_mem {cs : List Char} (hc : ∀ c ∈ cs, c.toNat < 128) {d : Char} (hd : d.toNat < 128) : UInt8.ofNat d.toNat ∈ utf8 cs ↔ d ∈ cs := by
  rw [mem_utf8_ascii hc]
  constructor
  · rintro ⟨c, hm, e⟩
    have := congrArg UInt8.toNat e
    rw [ascii_byte hd, ascii_byte (hc c hm)] at this
    have : d = c := Char.toNat_inj.1 this
    rw [this]; exact hm
  · exact fun hm => ⟨d, hm, rfl⟩

theorem high_not_mem {cs : List Char} (hc : ∀ c ∈ cs, c.toNat < 128) {b : UInt8} (hb : 128 ≤ b) : b ∉ utf8 cs := by
  rw [mem_utf8_ascii hc]
  rintro ⟨c, hm, rfl⟩
  rw [UInt8.le_iff_toNat_le, ascii_byte (hc c hm)] at hb
  have := hc c hm
  simp at hb
  omega

/-- A map of bytes that leaves everything but ASCII alone, as a map of characters. -/
theorem map_utf8 {f : UInt8 → UInt8} {g : Char → Char} (hf : ∀ b, 128 ≤ b → f b = b) (hg : ∀ c : Char, 128 ≤ c.toNat → g c = c)
    (hfg : ∀ c : Char, c.toNat < 128 → (g c).toNat < 128 ∧ f (UInt8.ofNat c.toNat) = UInt8.ofNat (g c).toNat) : ∀ t, (utf8 t).map f = utf8 (t.map g)
  | [] => rfl
  | c :: t => by
    rw [utf8_cons, List.map_append, map_utf8 hf hg hfg t, List.map_cons, utf8_cons]
    congr 1
    rcases enc_cases c with ⟨h, e⟩ | ⟨h, e⟩
    · rw [e, enc_ascii (hfg c h).1, List.map_singleton, (hfg c h).2]
    · rw [hg c h]
      exact (List.map_congr_left fun b hb => hf b (e b hb)).trans (List.map_id _)

theorem filter_utf8 {cs : List Char} (hc : ∀ c ∈ cs, c.toNat < 128) : ∀ t : List Char, (utf8 t).filter (fun x => decide (x ∉ utf8 cs)) = utf8 (t.filter (fun c => decide (c ∉ cs)))
  | [] => rfl
  | c :: t => by
    rw [utf8_cons, List.filter_append, filter_utf8 hc t]
    rcases enc_cases c with ⟨h, e⟩ | ⟨h, e⟩
    · by_cases hm : c ∈ cs
      · have := (ascii_mem hc h).2 hm
        simp [e, hm, this]
      · have := mt (ascii_mem hc h).1 hm
        simp [e, hm, this, utf8_cons]
    · have hm : c ∉ cs := fun hm => by have := hc c hm; omega
      have : (String.utf8EncodeChar c).filter (fun x => decide (x ∉ utf8 cs)) = String.utf8EncodeChar c :=
        List.filter_eq_self.2 fun b hb => by simpa using high_not_mem hc (e b hb)
      rw [this]
      simp [hm, utf8_cons]

/-- **C142** (partial: the set consists of ASCII characters, see `C142_remove_c_breaks`.) `vt_str_remove_c` removes exactly the characters of the set. -/
theorem C142_remove_c_partial {v : Arr} {t cs : List Char} (h : IsStr v (utf8 t)) {c : Mem} (hc : CStr c (utf8 cs)) (ha : ∀ c ∈ cs, c.toNat < 128) :
    ∃ v', Str.removeC v c = .ok v' ∧ IsStr v' (utf8 (t.filter (· ∉ cs))) := by
  obtain ⟨v', h1, h2, -⟩ := C22_remove_c h hc
  rw [filter_utf8 ha] at h2
  exact ⟨v', h1, h2⟩

/-- **C142** Conversion to upper and lower case: the ASCII letters are converted, every other character stays. -/
theorem C142_case {v : Arr} {t : List Char} (h : IsStr v (utf8 t)) :
    (∃ v', Str.toUppercase v = .ok v' ∧ IsStr v' (utf8 (t.map Char.toUpper))) ∧ ∃ v', Str.toLowercase v = .ok v' ∧ IsStr v' (utf8 (t.map Char.toLower)) := by
  obtain ⟨v1, a1, a2, -⟩ := C34_to_uppercase h
  obtain ⟨v2, b1, b2, -⟩ := C34_to_lowercase h
  have hu : ∀ n, n < 128 → (Char.ofNat n).toUpper.toNat < 128 ∧ upper (UInt8.ofNat n) = UInt8.ofNat (Char.ofNat n).toUpper.toNat := by decide
  have hl : ∀ n, n < 128 → (Char.ofNat n).toLower.toNat < 128 ∧ lower (UInt8.ofNat n) = UInt8.ofNat (Char.ofNat n).toLower.toNat := by decide
  refine ⟨⟨v1, a1, ?_⟩, ⟨v2, b1, ?_⟩⟩
  · rw [map_utf8 (g := Char.toUpper)] at a2
    · exact a2
    · intro b hb
      rw [UInt8.le_iff_toNat_le] at hb
      have : ¬ (97 ≤ b ∧ b ≤ 122) := by
        rw [UInt8.le_iff_toNat_le, UInt8.le_iff_toNat_le]
        simp at hb ⊢; omega
      rw [upper, if_neg this]
    · intro c hc
      have : ¬ ('a'.val ≤ c.val ∧ c.val ≤ 'z'.val) := by
        rw [UInt32.le_iff_toNat_le, UInt32.le_iff_toNat_le, Char.toNat_val]
        simp; omega
      rw [Char.toUpper, dif_neg this]
    · intro c hc
      have := hu c.toNat hc
      rwa [Char.ofNat_toNat] at this
  · rw [map_utf8 (g := Char.toLower)] at b2
    · exact b2
    · intro b hb
      rw [UInt8.le_iff_toNat_le] at hb
      have : ¬ (65 ≤ b ∧ b ≤ 90) := by
        rw [UInt8.le_iff_toNat_le, UInt8.le_iff_toNat_le]
        simp at hb ⊢; omega
      rw [lower, if_neg this]
    · intro c hc
      have : ¬ (c.val ≥ 'A'.val ∧ c.val ≤ 'Z'.val) := by
        rw [ge_iff_le, UInt32.le_iff_toNat_le, UInt32.le_iff_toNat_le, Char.toNat_val]
        simp; omega
      rw [Char.toLower, dif_neg this]
    · intro c hc
      have := hl c.toNat hc
      rwa [Char.ofNat_toNat] at this

/-- **C142** (refutation) A set with a character outside ASCII takes characters apart: from a character that begins with the same byte, something is left that is not UTF-8. -/
theorem C142_remove_c_breaks {v : Arr} {d c : Char} (h : IsStr v (utf8 [d])) {m : Mem} (hc : CStr m (utf8 [c])) (he : (utf8 [c]).head? = (utf8 [d]).head?)
    (hd : ¬ ∀ b ∈ utf8 [d], b ∈ utf8 [c]) : ∃ v', Str.removeC v m = .ok v' ∧ ∀ u, ¬ IsStr v' (utf8 u) := by
  obtain ⟨v', h1, h2, -⟩ := C22_remove_c h hc
  refine ⟨v', h1, fun u hu => ?_⟩
  have e := Out.ok.inj (h2.cstr.text.symm.trans hu.cstr.text)
  cases u with
  | nil =>
    rw [utf8_nil, List.filter_eq_nil_iff] at e
    exact hd fun b hb => by simpa using e b hb
  | cons y u =>
    have hy := enc_pos y
    have hf : ((String.utf8EncodeChar y)[0]).IsUTF8FirstByte := UInt8.isUTF8FirstByte_getElem_zero_utf8EncodeChar
    have hm : (String.utf8EncodeChar y)[0] ∈ utf8 (y :: u) := by
      rw [utf8_cons]; exact List.mem_append_left _ (List.getElem_mem hy)
    rw [← e, List.mem_filter, utf8_cons, utf8_nil, List.append_nil] at hm
    obtain ⟨i, hi, ei⟩ := List.mem_iff_getElem.1 hm.1
    rw [← ei, UInt8.isUTF8FirstByte_getElem_utf8EncodeChar] at hf
    subst hf
    rw [← ei] at hm
    refine (by simpa using hm.2 : (String.utf8EncodeChar d)[0] ∉ utf8 [c]) ?_
    have e0 : (utf8 [d]).head? = some (String.utf8EncodeChar d)[0] := by
      rw [utf8_cons, utf8_nil, List.append_nil, List.head?_eq_getElem?, List.getElem?_eq_getElem hi]
    rw [← he] at e0
    exact List.mem_of_head? e0

/-- ASCII bytes at the beginning of a text are characters. -/
theorem utf8_ascii_front : ∀ {a : Text} {t : List Char} {x : Text}, utf8 t = a ++ x → (∀ b ∈ a, b < 128) → ∃ t1 t2, t = t1 ++ t2 ∧ utf8 t1 = a ∧ utf8 t2 = x ∧ ∀ c ∈ t1, c.toNat < 128 ∧ UInt8.ofNat c.toNat ∈ a
  | [], t, x, h, _ => ⟨[], t, rfl, rfl, h, by simp⟩
  | b :: a, [], x, h, _ => by simp [utf8_nil] at h
  | b :: a, c :: t, x, h, hb => by
    rw [utf8_cons] at h
    have h128 := hb b (by simp)
    rcases enc_cases c with ⟨hc, e⟩ | ⟨hc, e⟩
    · rw [e] at h
      simp only [List.cons_append, List.nil_append, List.cons.injEq] at h
      obtain ⟨t1, t2, rfl, h1, h2, h3⟩ := utf8_ascii_front h.2 fun y hy => hb y (by simp [hy])
      refine ⟨c :: t1, t2, rfl, by rw [utf8_cons, e, h1, h.1]; rfl, h2, ?_⟩
      intro d hd
      rcases List.mem_cons.1 hd with rfl | hd
      · exact ⟨hc, by rw [h.1]; simp⟩
      · exact ⟨(h3 d hd).1, List.mem_cons_of_mem _ (h3 d hd).2⟩
    · exfalso
      have hp := enc_pos c
      cases hE : String.utf8EncodeChar c with
      | nil => rw [hE] at hp; simp at hp
      | cons y ys =>
        rw [hE] at h e
        simp only [List.cons_append, List.cons.injEq] at h
        have := e y (by simp)
        rw [h.1] at this
        exact absurd h128 (UInt8.not_lt.2 this)

theorem ascii_first {b : UInt8} (h : b < 128) : b.IsUTF8FirstByte := by
  have : ∀ n, n < 128 → (UInt8.ofNat n).IsUTF8FirstByte := by decide
  have h' := this b.toNat (by rw [UInt8.lt_iff_toNat_lt] at h; simpa using h)
  rwa [UInt8.ofNat_toNat] at h'

theorem strip_utf8 {p : UInt8 → Bool} {set t : List Char} {m : Text} (hp : ∀ b, p b = true ↔ ∃ c ∈ set, c.toNat < 128 ∧ b = UInt8.ofNat c.toNat)
    (hset : ∀ c ∈ set, c.toNat < 128) (h : IsStrip p (utf8 t) m) : ∃ u, m = utf8 u ∧ StripOf set t u := by
  obtain ⟨a, b, e, ha, hb, h1, h2⟩ := h
  have hlow : ∀ y, p y = true → y < 128 := by
    intro y hy
    obtain ⟨c, -, hc, rfl⟩ := (hp y).1 hy
    rw [UInt8.lt_iff_toNat_lt, ascii_byte hc]
    simpa using hc
  have hin : ∀ c : Char, c.toNat < 128 → (p (UInt8.ofNat c.toNat) = true ↔ c ∈ set) := by
    intro c hc
    rw [hp]
    constructor
    · rintro ⟨d, hd, hd', e⟩
      have := congrArg UInt8.toNat e
      rw [ascii_byte hc, ascii_byte hd'] at this
      rw [Char.toNat_inj.1 this]; exact hd
    · exact fun hm => ⟨c, hm, hc, rfl⟩
  rw [List.append_assoc] at e
  obtain ⟨t1, t2, rfl, ea, e2, hc1⟩ := utf8_ascii_front e fun y hy => hlow y (ha y hy)
  obtain ⟨u, t3, rfl, eu, eb⟩ := utf8_split e2 fun y hy => ascii_first (hlow y (hb y (List.mem_of_head? hy)))
  refine ⟨u, eu.symm, t1, t3, by simp, fun c hc => ?_, fun c hc => ?_, fun c hc hm => ?_, fun c hc hm => ?_⟩
  · exact (hin c (hc1 c hc).1).1 (ha _ (hc1 c hc).2)
  · obtain ⟨t4, t5, e4, e5, e6, e7⟩ := utf8_ascii_front (t := t3) (a := b) (x := []) (by rw [eb, List.append_nil]) fun y hy => hlow y (hb y hy)
    have : t5 = [] := by by_contra hn; exact utf8_ne_nil hn e6
    subst this
    rw [List.append_nil] at e4
    subst e4
    exact (hin c (e7 c hc).1).1 (hb _ (e7 c hc).2)
  · cases u with
    | nil => simp at hc
    | cons d u =>
      simp only [List.head?_cons, Option.some.injEq] at hc
      subst hc
      have hd := hset d hm
      have := h1 (UInt8.ofNat d.toNat) (by rw [← eu, utf8_cons, enc_ascii hd]; rfl)
      rw [(hin d hd).2 hm] at this
      simp at this
  · obtain ⟨u', rfl⟩ := List.getLast?_eq_some_iff.1 hc
    have hd := hset c hm
    have := h2 (UInt8.ofNat c.toNat) (by rw [← eu, utf8_append, utf8_cons, utf8_nil, List.append_nil, enc_ascii hd, List.getLast?_append]; rfl)
    rw [(hin c hd).2 hm] at this
    simp at this

/-- **C142** (partial as C26: something must remain.) `vt_str_strip` and, for a set of ASCII characters, `vt_str_strip_c` strip characters. -/
theorem C142_strip_partial {v : Arr} {t : List Char} (h : IsStr v (utf8 t)) {k : Nat} (hk : (utf8 t).length < k) :
    ((∃ c ∈ t, c ∉ blanks) → ∃ v' u, Str.strip k v = .ok v' ∧ IsStr v' (utf8 u) ∧ StripOf blanks t u) ∧
    ∀ {set : List Char} {m : Mem}, CStr m (utf8 set) → set ≠ [] → (∀ c ∈ set, c.toNat < 128) → (∃ c ∈ t, c ∉ set) →
      ∃ v' u, Str.stripC k v m = .ok v' ∧ IsStr v' (utf8 u) ∧ StripOf set t u := by
  have hout : ∀ {set : List Char}, (∀ c ∈ set, c.toNat < 128) → (∃ c ∈ t, c ∉ set) → ∃ b ∈ utf8 t, b ∉ utf8 set := by
    rintro set hset ⟨c, hc, hn⟩
    rcases enc_cases c with ⟨hl, e⟩ | ⟨hl, e⟩
    · exact ⟨UInt8.ofNat c.toNat, List.mem_flatMap.2 ⟨c, hc, by rw [e]; simp⟩, mt (ascii_mem hset hl).1 hn⟩
    · have hp := enc_pos c
      exact ⟨(String.utf8EncodeChar c)[0], List.mem_flatMap.2 ⟨c, hc, List.getElem_mem hp⟩, high_not_mem hset (e _ (List.getElem_mem hp))⟩
  have hblank : ∀ c ∈ blanks, c.toNat < 128 := by decide
  have hB : utf8 blanks = [32, 9, 10, 11, 12, 13] := by decide
  refine ⟨fun hc => ?_, fun {set m} hm h0 hset hc => ?_⟩
  · obtain ⟨b, hb, hn⟩ := hout hblank hc
    obtain ⟨v', m, h1, h2, h3, -, -⟩ := C26_strip_partial h ⟨b, hb, by rw [hB] at hn; simpa [Blank] using hn⟩ hk
    obtain ⟨u, rfl, hu⟩ := strip_utf8 (set := blanks) (fun b => by
      rw [Blank, decide_eq_true_iff, ← hB, mem_utf8_ascii hblank]
      exact ⟨fun ⟨c, hm, e⟩ => ⟨c, hm, hblank c hm, e⟩, fun ⟨c, hm, _, e⟩ => ⟨c, hm, e⟩⟩) hblank h3
    exact ⟨v', u, h1, h2, hu⟩
  · obtain ⟨v', m, h1, h2, h3, -, -⟩ := C26_strip_c_partial h hm (utf8_ne_nil h0) (hout hset hc) hk
    obtain ⟨u, rfl, hu⟩ := strip_utf8 (set := set) (fun b => by
      rw [decide_eq_true_iff, mem_utf8_ascii hset]
      exact ⟨fun ⟨c, hm, e⟩ => ⟨c, hm, hset c hm, e⟩, fun ⟨c, hm, _, e⟩ => ⟨c, hm, e⟩⟩) hset h3
    exact ⟨v', u, h1, h2, hu⟩

/-- **C142** A path whose last `/` stands between the characters `a` and `b`: `vt_path_pop` leaves `a`, `vt_path_basename` gives `b` (partial as C59: neither is empty). -/
theorem C142_path_partial {E : Env} {z : Mem} {a b : List Char} (h : CStr z (utf8 (a ++ '/' :: b))) (hn : '/' ∉ b) :
    (∃ z', Path.pop z = .ok z' ∧ CStr z' (utf8 a)) ∧
    ∀ {k : Nat}, (utf8 (a ++ '/' :: b)).length < k → a ≠ [] → b ≠ [] → ∀ {s : Option Arr}, (∀ v, s = some v → ∃ u, IsStr v u) →
      OkOr E (capOf s + (utf8 (a ++ '/' :: b)).length + 56) (Path.basename E k s z) fun r => ∃ v, r = some v ∧ IsStr v (utf8 b) := by
  have e : utf8 (a ++ '/' :: b) = utf8 a ++ 47 :: utf8 b := by
    rw [utf8_append, utf8_cons]; rfl
  have hn' : (47 : UInt8) ∉ utf8 b := by
    intro hm
    obtain ⟨c, hc, hb⟩ := List.mem_flatMap.1 hm
    rcases enc_cases c with ⟨hl, ec⟩ | ⟨hl, ec⟩
    · rw [ec] at hb
      have := congrArg UInt8.toNat (List.mem_singleton.1 hb)
      rw [ascii_byte hl] at this
      have : c = '/' := Char.toNat_inj.1 this.symm
      exact hn (this ▸ hc)
    · exact absurd (ec _ hb) (by decide)
  rw [e] at h
  refine ⟨?_, fun {k} hk ha hb s hs => ?_⟩
  · obtain ⟨z', h1, h2, -⟩ := (C58_pop_partial h (by simp)).2 _ _ rfl hn'
    exact ⟨z', h1, h2⟩
  · rw [e] at hk ⊢
    exact C59_basename_partial h hn' (utf8_ne_nil ha) (utf8_ne_nil hb) hk hs

/-! ### Examples -/

-- the hypotheses of the theorems on `é日é!`: the first `日`, `é` in place of it
example : IsStr (strObj (utf8 ['é', '日', 'é', '!']) 0) (utf8 ['é', '日', 'é', '!']) ∧ CStr (zstr (utf8 ['日'])) (utf8 ['日']) ∧ utf8 ['é', '日'] = [195, 169, 230, 151, 165] ∧
    FirstAt ['é', '日', 'é', '!'] ['日'] ['é'] ['é', '!'] :=
  ⟨isStr_strObj (by decide) (by decide), cstr_zstr (by decide) (by decide), by decide, rfl, fun a' b' e => by
    cases a' with
    | nil => simp at e
    | cons => simp⟩

-- the parts of `é日é日!` between the `日`
example : PartsOf ['日'] ['é', '日', 'é', '日', '!'] [['é'], ['é'], ['!']] ∧ ['日'] <:+: ['é', '日', 'é', '日', '!'] ∧ ¬ (['日'] ++ ['日']) <:+ ['é', '日', 'é', '日', '!'] := by
  have hf : ∀ b, FirstAt ('é' :: '日' :: b) ['日'] ['é'] b := fun b => ⟨rfl, fun a' b' e => by
    cases a' with
    | nil => simp at e
    | cons => simp⟩
  exact ⟨.cut (hf _) (.cut (hf _) (.last (by decide))), by decide, by decide⟩

-- the last `é`, whose occurrences do not overlap; `日` between the first `é` and the first `!`
example : LastAt ['é', '日', 'é', '!'] ['é'] ['é', '日'] ['!'] ∧ Apart ['é', '日', 'é', '!'] ['é'] ∧ FirstAt ['é', '日', '!'] ['é'] [] (['日'] ++ ['!'] ++ []) ∧
    FirstAt ['é', '日', '!'] ['!'] ([] ++ ['é'] ++ ['日']) [] := by
  refine ⟨⟨rfl, fun a' b' e => ?_⟩, fun a b a' b' _ _ h => h, ⟨rfl, fun a' b' e => Nat.zero_le _⟩, rfl, fun a' b' e => ?_⟩
  · rcases a' with _ | ⟨c1, _ | ⟨c2, _ | ⟨c3, _ | ⟨c4, a'⟩⟩⟩⟩ <;> simp at e ⊢
  · rcases a' with _ | ⟨c1, _ | ⟨c2, a'⟩⟩ <;> simp at e ⊢

-- position 1 is inside the `é`, position 2 behind it
example : (∀ a b, ['é', '!'] = a ++ b → 1 ≠ (utf8 a).length) ∧ ['é', '!'] = ['é'] ++ ['!'] ∧ 2 = (utf8 ['é']).length := by
  refine ⟨fun a b e h => ?_, rfl, by decide⟩
  cases a with
  | nil => simp [utf8_nil] at h
  | cons c a =>
    simp only [List.cons_append, List.cons.injEq] at e
    rw [utf8_cons, ← e.1] at h
    simp only [List.length_append] at h
    have : (String.utf8EncodeChar 'é').length = 2 := by decide
    omega

-- the set `a!`, upper case, white space around characters
example : (∀ c ∈ ['a', '!'], c.toNat < 128) ∧ ['é', 'a', '!', '日'].filter (· ∉ ['a', '!']) = ['é', '日'] ∧ ['é', 'a'].map Char.toUpper = ['é', 'A'] ∧
    StripOf blanks [' ', 'é', ' ', '日', '\t'] ['é', ' ', '日'] := by
  refine ⟨by decide, by decide, by decide, [' '], ['\t'], by decide, by decide, by decide, ?_, ?_⟩ <;> intro c hc <;> simp at hc <;> subst hc <;> decide

-- the set `é` makes `è` into a byte that is no character
example : (utf8 ['é']).head? = (utf8 ['è']).head? ∧ ¬ ∀ b ∈ utf8 ['è'], b ∈ utf8 ['é'] := by decide
example : Str.removeC (strObj (utf8 ['è']) 0) (zstr (utf8 ['é'])) = .ok { strObj [168] 1 with mem := [some 168, some 0, some 0] } := by decide +kernel

-- the path `日/é`
example : CStr (zstr (utf8 (['日'] ++ '/' :: ['é']))) (utf8 (['日'] ++ '/' :: ['é'])) ∧ '/' ∉ ['é'] := ⟨cstr_zstr (by decide) (by decide), by decide⟩

end Vita
