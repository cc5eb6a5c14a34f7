import Verif.Props.StrQuery
import Verif.Props.PathText
import Verif.Props.Vec

/-!
C98: an edit followed by the opposite edit gives the old contents back.  C99: functions that bring a
text into a normal form change nothing when they are called once more.

Both are about compositions of calls, and so about how the functions of the library fit together; what each of
them does alone is the subject of C05, C16, C21-C26, C32, C34, C58-C60.
-/

namespace Vita
open Out Spec

/-! ### C98 -/

theorem mapOk_ok {α β : Type} {f : α → β} {o : Out α} {b : β} (h : o.mapOk f = .ok b) : ∃ a, o = .ok a ∧ f a = b := by
  cases o with
  | ok a => exact ⟨a, rfl, Out.ok.inj h⟩
  | exit w => cases h
  | ub => cases h
  | fuel => cases h

/-- **C98** What has been inserted can be removed again. -/
theorem C98_insert_remove {E : Env} {v : Arr} {t zs : Text} (h : IsStr v t) {z : Mem} (hz : CStr z zs) (h0 : zs ≠ []) {i : Nat}
    (hi : i < t.length) :
    OkOr E (t.length + zs.length + 1) (do let v ← Str.insert E v z i; Str.remove E v i zs.length) fun v' => IsStr v' t := by
  refine (insert_okOr h hz hi).bind fun v1 h1 => ?_
  have hp := List.length_pos_iff.2 h0
  obtain ⟨v2, e2, h2, -⟩ := C16_remove (E := E) h1.1 (i := i) hp (by simp; omega)
  rw [e2]
  refine OkOr.ok ?_
  have : (t.take i).length = i := by simp; omega
  rwa [List.append_assoc, List.take_append_of_le_length (by omega), List.take_of_length_le (by omega), ← List.drop_drop,
    List.drop_append_of_le_length (by omega), List.drop_eq_nil_of_le (as := t.take i) (by omega), List.nil_append,
    List.drop_left, List.take_append_drop] at h2

/-- **C98** The same for appending. -/
theorem C98_append_remove {E : Env} {v : Arr} {t zs : Text} (h : IsStr v t) {z : Mem} (hz : CStr z zs) (h0 : zs ≠ []) :
    OkOr E (t.length + zs.length + 1) (do let v ← Str.append E v z; Str.remove E v t.length zs.length) fun v' => IsStr v' t := by
  refine (append_okOr h hz h0).bind fun v1 h1 => ?_
  have hp := List.length_pos_iff.2 h0
  obtain ⟨v2, e2, h2, -⟩ := C16_remove (E := E) h1.1 (i := t.length) hp (by simp; omega)
  rw [e2]
  refine OkOr.ok ?_
  rwa [List.take_left, List.drop_eq_nil_of_le (by simp), List.append_nil] at h2

/-- **C98** What has been removed can be put back, without any memory being requested: by `insert` if something stands behind it, by
`append` if it was the end of the text. -/
theorem C98_remove_insert {E : Env} {v : Arr} {t zs : Text} (h : IsStr v t) {z : Mem} (hz : CStr z zs) (h0 : zs ≠ []) {i : Nat}
    (ho : OccursAt t zs i) :
    ∃ v1 v2, Str.remove E v i zs.length = .ok v1 ∧ IsStr v2 t ∧ v2.cap = v.cap ∧
      (i + zs.length < t.length → Str.insert E v1 z i = .ok v2) ∧ (i + zs.length = t.length → Str.append E v1 z = .ok v2) := by
  have hp := List.length_pos_iff.2 h0
  have hle := ho.le
  have hc := h.le
  obtain ⟨v1, e1, h1, c1⟩ := C16_remove (E := E) h (i := i) hp (by omega)
  have hl : (t.take i ++ t.drop (i + zs.length)).length = t.length - zs.length := by simp; omega
  have hti : (t.take i).length = i := by simp; omega
  by_cases hb : i + zs.length < t.length
  · obtain ⟨v2, e2, h2, c2⟩ := C16_insert (E := E) h1 hz (i := i) (by omega) (Or.inl (by rw [hl, c1]; omega))
    refine ⟨v1, v2, e1, ?_, by rw [c2, hl, c1]; omega, fun _ => e2, fun e => by omega⟩
    have e : (t.take i ++ t.drop (i + zs.length)).take i ++ zs ++ (t.take i ++ t.drop (i + zs.length)).drop i = t := by
      rw [List.take_append_of_le_length (by omega), List.take_of_length_le (by omega), List.drop_append_of_le_length (by omega),
        List.drop_eq_nil_of_le (as := t.take i) (by omega), List.nil_append]
      exact ho.eq.symm
    rwa [e] at h2
  · obtain ⟨v2, e2, h2, c2⟩ := C16_append (E := E) h1 hz h0 (Or.inl (by rw [hl, c1]; omega))
    refine ⟨v1, v2, e1, ?_, by rw [c2, hl, c1]; omega, fun e => by omega, fun _ => e2⟩
    have e : t.take i ++ t.drop (i + zs.length) ++ zs = t := by
      conv_rhs => rw [ho.eq]
      rw [List.drop_eq_nil_of_le (by omega)]; simp
    rwa [e] at h2

/-- **C98** The field taken off by `pop_get_first` and the rest, joined by the separator, are the text again (neither of the two being empty;
`join` does not accept empty texts in debug builds). -/
theorem C98_pop_join {E : Env} {v : Arr} {t ss : Text} (h : IsStr v t) {sep : Mem} (hs : CStr sep ss) (h0 : ss ≠ []) {i : Nat}
    (hi : IsFirst t ss i) (hp : 0 < i) (hq : i + ss.length < t.length) :
    OkOr E (t.length + 72) (do
      let q ← Str.popGetFirst E none v sep
      match q.1 with
      | some x => Str.join E none sep [x.mem, q.2.mem]
      | none => .ub) fun v' => IsStr v' t := by
  have hle := hi.1.le
  refine (C32_pop_get_first h hs h0 (sr := none) (by simp) hi hp).bind ?_ (by simp [capOf]; omega)
  rintro q ⟨x, a, b, e, ha, hb, rfl, hl⟩
  rw [e]
  have ha0 : a ≠ [] := by rintro rfl; simp at hl; omega
  have hb0 : b ≠ [] := by rintro rfl; simp at hq; omega
  have := (C30_join (E := E) hs h0 (ps := [x.mem, q.2.mem]) (ts := [a, b]) (.cons ha.cstr (.cons hb.cstr .nil))
    (by simp [ha0, hb0]) (by simp)).2
  simpa [joinWith] using this

/-- **C98** Replacing characters by others that do not occur in the text, each by its own, can be undone by the opposite replacement. -/
theorem C98_replace_c_back {v : Arr} {t cs rs : Text} (h : IsStr v t) {c r : Mem} (hc : CStr c cs) (hr : CStr r rs)
    (hl : cs.length = rs.length) (h0 : cs ≠ []) (hn : rs.Nodup) (hd : ∀ x ∈ t, x ∉ rs) :
    ∃ v1 v2, Str.replaceC v c r = .ok v1 ∧ Str.replaceC v1 r c = .ok v2 ∧ IsStr v2 t ∧ v2.cap = v.cap := by
  have hr0 : rs ≠ [] := by intro e; rw [e] at hl; exact h0 (List.length_eq_zero_iff.1 hl)
  obtain ⟨v1, t1, e1, h1, c1, f1⟩ := C25_replace_c h hc hr (by omega) hr0
  obtain ⟨v2, t2, e2, h2, c2, f2⟩ := C25_replace_c h1 hr hc (by omega) h0
  refine ⟨v1, v2, e1, e2, ?_, by rw [c2, c1]⟩
  have key : ∀ {t t1 t2 : Text}, List.Forall₂ (IsTranslated cs rs) t t1 → List.Forall₂ (IsTranslated rs cs) t1 t2 →
      (∀ x ∈ t, x ∉ rs) → t2 = t := by
    intro t t1 t2 f
    induction f generalizing t2 with
    | nil => intro g _; cases g; rfl
    | @cons x y _ _ hxy _ ih =>
      intro g hd
      cases g with
      | @cons _ w _ _ hyw g =>
      rw [ih g (fun x hx => hd x (by simp [hx]))]
      congr 1
      have hx := hd x (by simp)
      rcases hxy with ⟨-, rfl⟩ | ⟨j, hj, hf, hy⟩
      · rcases hyw with ⟨-, e⟩ | ⟨j, hj, -⟩
        · exact e
        · exact absurd (List.mem_of_getElem? hj) hx
      · have hjl := (List.getElem?_eq_some_iff.1 hj).1
        have hy : rs[j]? = some y := by
          rcases hy with hy | hy
          · exact hy.2
          · omega
        rcases hyw with ⟨hm, -⟩ | ⟨k, hk, -, hw⟩
        · exact absurd (List.mem_of_getElem? hy) hm
        · have hkl := (List.getElem?_eq_some_iff.1 hk).1
          have e : k = j := (List.getElem?_inj hkl hn).1 (by rw [hk, hy])
          subst e
          rcases hw with hw | hw
          · rw [hj] at hw; exact (Option.some.inj hw.2).symm
          · omega
  rwa [key f1 f2 hd] at h2

/-- **C98** An element inserted into a vector can be removed again (stable strategy). -/
theorem C98_vec_insert_remove (E : Env) (v v1 : Arr) (h : v.WF) (val : Mem) (hv : v.elsize ≤ val.length) (i : Nat) (hi : i < Vec.length v)
    (hr : Vec.insert E v val i = .ok v1) : ∃ v2, Vec.remove E v1 i .stable = .ok v2 ∧ v2.elems = v.elems ∧ v2.WF := by
  have hi' : i < v.len := hi
  have hl : v.elems.length = v.len := by simp [Arr.elems]
  obtain ⟨e1, e2⟩ := insert_spec (E := E) h hv hi'
  obtain ⟨w1, -⟩ := e2 v1 hr
  rw [hr] at e1
  have he : v1.elems = insertAt v.elems i (val.take v.elsize) := by
    simp only [mapOk, withRoom] at e1
    split at e1
    · injection e1 with e1; exact congrArg SeqState.elems e1
    · split at e1
      · injection e1 with e1; exact congrArg SeqState.elems e1
      · cases e1
  have hl1 : v1.elems.length = v1.len := by simp [Arr.elems]
  have hlen : i < v1.len := by rw [← hl1, he]; simp [insertAt]; omega
  obtain ⟨v2, h2, h3, -, h4, -⟩ := C05_remove_stable E v1 w1 i hlen
  refine ⟨v2, h2, ?_, h4⟩
  rw [h3, he, insertAt]
  have ht : (v.elems.take i).length = i := by simp; omega
  rw [List.take_append_of_le_length (by omega), List.take_of_length_le (by omega), ← List.drop_drop, List.drop_append_of_le_length (by omega),
    List.drop_eq_nil_of_le (as := v.elems.take i) (by omega), List.nil_append, List.drop_succ_cons, List.drop_zero, List.take_append_drop]

/-- **C98** An element removed from a vector (stable strategy) can be put back, without any memory being requested: by `insert` if it was not the
last one, by `push_back` otherwise. -/
theorem C98_vec_remove_insert (E : Env) (v : Arr) (h : v.WF) (val : Mem) (hv : v.elsize ≤ val.length) (i : Nat)
    (hx : v.elems[i]? = some (val.take v.elsize)) :
    ∃ v1 v2, Vec.remove E v i .stable = .ok v1 ∧ v2.elems = v.elems ∧ v2.cap = v.cap ∧ v2.WF ∧
      (i + 1 < Vec.length v → Vec.insert E v1 val i = .ok v2) ∧ (i + 1 = Vec.length v → Vec.pushBack E v1 val = .ok v2) := by
  have hl : v.elems.length = v.len := by simp [Arr.elems]
  have hi : i < v.len := by rw [← hl]; exact (List.getElem?_eq_some_iff.1 hx).1
  have hle := h.le
  obtain ⟨v1, e1, a1, w1, s1⟩ := removeStable_spec (E := E) h hi
  have b1 : v1.elems = removeAt v.elems i := congrArg SeqState.elems a1
  have c1 : v1.cap = v.cap := congrArg SeqState.cap a1
  have hl1 : v1.elems.length = v1.len := by simp [Arr.elems]
  have hlen1 : v1.len + 1 = v.len := by rw [← hl1, b1]; simp [removeAt]; omega
  have hes : v1.elsize = v.elsize := s1.1
  have hti : (v.elems.take i).length = i := by simp; omega
  have hdrop : v.elems.drop i = val.take v.elsize :: v.elems.drop (i + 1) := by
    obtain ⟨hh, e⟩ := List.getElem?_eq_some_iff.1 hx
    rw [List.drop_eq_getElem_cons hh, e]
  have hroom : ∀ l, withRoom E v1.elsize v1.abs l = .ok ⟨l, v.cap⟩ := fun l => by
    rw [withRoom, if_pos (show v1.abs.elems.length < v1.abs.cap by show v1.elems.length < v1.cap; omega)]
    exact congrArg (fun c => Out.ok (SeqState.mk l c)) c1
  by_cases hb : i + 1 < v.len
  · obtain ⟨g1, g2⟩ := insert_spec (E := E) w1 (val := val) (by omega) (i := i) (by omega)
    rw [hroom] at g1
    obtain ⟨v2, e2, a2⟩ := mapOk_ok g1
    refine ⟨v1, v2, e1, ?_, congrArg SeqState.cap a2, (g2 v2 e2).1, fun _ => e2, fun e => absurd e (by show i + 1 ≠ v.len; omega)⟩
    have : v2.elems = _ := congrArg SeqState.elems a2
    rw [this, b1, removeAt, insertAt, hes, List.take_append_of_le_length (by omega), List.take_of_length_le (by omega),
      List.drop_append_of_le_length (by omega), List.drop_eq_nil_of_le (as := v.elems.take i) (by omega), List.nil_append, ← hdrop,
      List.take_append_drop]
  · obtain ⟨g1, g2⟩ := pushBack_spec (E := E) w1 (val := val) (by omega)
    rw [hroom] at g1
    obtain ⟨v2, e2, a2⟩ := mapOk_ok g1
    refine ⟨v1, v2, e1, ?_, congrArg SeqState.cap a2, (g2 v2 e2).1, fun e => absurd e (by show ¬ i + 1 < v.len; omega), fun _ => e2⟩
    have : v2.elems = _ := congrArg SeqState.elems a2
    rw [this, b1, removeAt, hes, List.append_assoc]
    conv_rhs => rw [← List.take_append_drop i v.elems, hdrop]
    rw [List.drop_eq_nil_of_le (by omega)]
    rfl

/-- **C98** The last segment of a path that was built from segments can be popped again: what is left is the path built from the others. -/
theorem C98_build_pop {E : Env} {ps : List Mem} {ts : List Text} {p : Mem} {s : Text} (h : List.Forall₂ CStr (ps ++ [p]) (ts ++ [s]))
    (hne : ∀ x ∈ ts ++ [s], x ≠ []) (h1 : ts ≠ []) (hs : 47 ∉ s) :
    OkOr E ((joinWith [47] (ts ++ [s])).length + 72) (do let v ← Path.build E none (ps ++ [p]); Path.pop v.mem) fun z =>
      CStr z (joinWith [47] ts) := by
  refine (C60_build h hne (by simp)).2.bind fun v hv => ?_
  have e : ∀ (ts : List Text), ts ≠ [] → joinWith [47] (ts ++ [s]) = joinWith [47] ts ++ 47 :: s := by
    intro ts
    induction ts with
    | nil => intro h; exact absurd rfl h
    | cons a ts ih =>
      intro _
      cases ts with
      | nil => simp [joinWith]
      | cons b ts => rw [List.cons_append, List.cons_append, joinWith, ← List.cons_append, ih (by simp), joinWith]; simp
  rw [e ts h1] at hv
  obtain ⟨z', e', h', -⟩ := (C58_pop_partial hv.cstr (by simp)).2 _ _ rfl hs
  rw [e']
  exact OkOr.ok h'

/-! ### C99 -/

/-- **C99** Converting the case twice is converting it once, and only the last conversion counts. -/
theorem C99_case {v : Arr} {t : Text} (h : IsStr v t) :
    ∃ u l a b, Str.toUppercase v = .ok u ∧ Str.toLowercase v = .ok l ∧ Str.z u = .ok a ∧ Str.z l = .ok b ∧
      (∃ u', Str.toUppercase u = .ok u' ∧ Str.z u' = .ok a) ∧ (∃ l', Str.toLowercase l = .ok l' ∧ Str.z l' = .ok b) ∧
      (∃ u', Str.toUppercase l = .ok u' ∧ Str.z u' = .ok a) ∧ (∃ l', Str.toLowercase u = .ok l' ∧ Str.z l' = .ok b) := by
  obtain ⟨u, eu, hu, -⟩ := C34_to_uppercase h
  obtain ⟨l, el, hl, -⟩ := C34_to_lowercase h
  obtain ⟨u1, e1, h1, -⟩ := C34_to_uppercase hu
  obtain ⟨l1, e2, h2, -⟩ := C34_to_lowercase hl
  obtain ⟨u2, e3, h3, -⟩ := C34_to_uppercase hl
  obtain ⟨l2, e4, h4, -⟩ := C34_to_lowercase hu
  have k1 : ∀ c, upper (lower c) = upper c := fun c => by
    simpa using uint8_ext (p := fun c => decide (upper (lower c) = upper c)) (q := fun _ => true) (by decide +kernel) c
  have k2 : ∀ c, lower (upper c) = lower c := fun c => by
    simpa using uint8_ext (p := fun c => decide (lower (upper c) = lower c)) (q := fun _ => true) (by decide +kernel) c
  refine ⟨u, l, _, _, eu, el, hu.text, hl.text, ⟨u1, e1, ?_⟩, ⟨l1, e2, ?_⟩, ⟨u2, e3, ?_⟩, ⟨l2, e4, ?_⟩⟩
  · rw [Str.z, h1.text, (C34_case_idempotent t).1]
  · rw [Str.z, h2.text, (C34_case_idempotent t).2]
  · rw [Str.z, h3.text, List.map_map]; simp [Function.comp_def, k1]
  · rw [Str.z, h4.text, List.map_map]; simp [Function.comp_def, k2]

theorem strip_self {p : UInt8 → Bool} {t m : Text} (h : IsStrip p t m) : IsStrip p m m := by
  obtain ⟨a, b, -, -, -, h1, h2⟩ := h
  exact ⟨[], [], by simp, by simp, by simp, h1, h2⟩

theorem strip_head {p : UInt8 → Bool} {t m : Text} (h : IsStrip p t m) (h0 : m ≠ []) : ∃ c ∈ m, p c = false := by
  obtain ⟨a, b, -, -, -, h1, -⟩ := h
  cases m with
  | nil => exact absurd rfl h0
  | cons c m => exact ⟨c, by simp, h1 c rfl⟩

theorem strip_le {p : UInt8 → Bool} {t m : Text} (h : IsStrip p t m) : m.length ≤ t.length := by
  obtain ⟨a, b, rfl, -⟩ := h
  simp; omega

/-- **C99** Stripping twice is stripping once. (For texts in which something remains; for the others stripping has no defined result, see C26.) -/
theorem C99_strip {v : Arr} {t : Text} (h : IsStr v t) {k : Nat} (hk : t.length < k) :
    ((∃ c ∈ t, Blank c = false) →
      ∃ v1 v2 m, Str.strip k v = .ok v1 ∧ Str.strip k v1 = .ok v2 ∧ Str.z v1 = .ok m ∧ Str.z v2 = .ok m) ∧
    ((∃ c ∈ t, (Blank c || Punct c) = false) →
      ∃ v1 v2 m, Str.stripPunct k v = .ok v1 ∧ Str.stripPunct k v1 = .ok v2 ∧ Str.z v1 = .ok m ∧ Str.z v2 = .ok m) ∧
    (∀ c cs, CStr c cs → cs ≠ [] → (∃ x ∈ t, x ∉ cs) →
      ∃ v1 v2 m, Str.stripC k v c = .ok v1 ∧ Str.stripC k v1 c = .ok v2 ∧ Str.z v1 = .ok m ∧ Str.z v2 = .ok m) := by
  refine ⟨fun hc => ?_, fun hc => ?_, fun c cs hcs h0 hc => ?_⟩
  · obtain ⟨v1, m, e1, h1, s1, n1, -⟩ := C26_strip_partial h hc hk
    obtain ⟨v2, m2, e2, h2, s2, n2, -⟩ := C26_strip_partial h1 (strip_head s1 n1) (Nat.lt_of_le_of_lt (strip_le s1) hk)
    have : m2 = m := strip_unique s2 (strip_self s1) n2 n1
    exact ⟨v1, v2, m, e1, e2, h1.text, by rw [Str.z, h2.text, this]⟩
  · obtain ⟨v1, m, e1, h1, s1, n1, -⟩ := C26_strip_punct_partial h hc hk
    obtain ⟨v2, m2, e2, h2, s2, n2, -⟩ := C26_strip_punct_partial h1 (strip_head s1 n1) (Nat.lt_of_le_of_lt (strip_le s1) hk)
    have : m2 = m := strip_unique s2 (strip_self s1) n2 n1
    exact ⟨v1, v2, m, e1, e2, h1.text, by rw [Str.z, h2.text, this]⟩
  · obtain ⟨v1, m, e1, h1, s1, n1, -⟩ := C26_strip_c_partial h hcs h0 hc hk
    obtain ⟨v2, m2, e2, h2, s2, n2, -⟩ := C26_strip_c_partial h1 hcs h0 (by simpa using strip_head s1 n1) (Nat.lt_of_le_of_lt (strip_le s1) hk)
    have : m2 = m := strip_unique s2 (strip_self s1) n2 n1
    exact ⟨v1, v2, m, e1, e2, h1.text, by rw [Str.z, h2.text, this]⟩

/-- **C99** Removing all occurrences, or all characters of a set, twice is removing them once. -/
theorem C99_remove {v : Arr} {t zs : Text} (h : IsStr v t) {z : Mem} (hz : CStr z zs) :
    (∀ k, zs ≠ [] → t.length < k → ∃ v1 v2 m, Str.removeAll k v z = .ok v1 ∧ Str.removeAll k v1 z = .ok v2 ∧ Str.z v1 = .ok m ∧ Str.z v2 = .ok m) ∧
    ∃ v1 v2 m, Str.removeC v z = .ok v1 ∧ Str.removeC v1 z = .ok v2 ∧ Str.z v1 = .ok m ∧ Str.z v2 = .ok m := by
  constructor
  · intro k h0 hk
    obtain ⟨v1, t1, e1, h1, -, n1, -, sub, -⟩ := C21_remove_all_partial h hz h0 hk
    obtain ⟨v2, t2, e2, h2, -, -, -, -, hsame⟩ := C21_remove_all_partial h1 hz h0 (k := k) (by have := sub.length_le; omega)
    exact ⟨v1, v2, t1, e1, e2, h1.text, by rw [Str.z, h2.text, hsame n1]⟩
  · obtain ⟨v1, e1, h1, -⟩ := C22_remove_c h hz
    obtain ⟨v2, e2, h2, -⟩ := C22_remove_c h1 hz
    exact ⟨v1, v2, _, e1, e2, h1.text, by rw [Str.z, h2.text]; simp⟩

/-- **C99** Validating a path twice is validating it once, byte for byte. -/
theorem C99_validate {z : Mem} {t : Text} (h : CStr z t) :
    ∃ z1, Path.validate z = .ok z1 ∧ Path.validate z1 = .ok z1 := by
  obtain ⟨z1, e1, h1, l1, k1⟩ := C60_validate h
  obtain ⟨z2, e2, h2, l2, k2⟩ := C60_validate h1
  refine ⟨z1, e1, ?_⟩
  rw [e2]
  congr 1
  have ht : (List.map (fun c => if c = 92 then (47 : UInt8) else c) (List.map (fun c => if c = 92 then 47 else c) t)) =
      List.map (fun c => if c = 92 then (47 : UInt8) else c) t := by
    rw [List.map_map]
    refine List.map_congr_left fun c _ => ?_
    simp only [Function.comp_apply]
    split <;> simp_all
  rw [ht] at h2
  obtain ⟨⟨r1, q1⟩, -⟩ := scanZ_eq_ok.1 h1.text
  obtain ⟨⟨r2, q2⟩, -⟩ := scanZ_eq_ok.1 h2.text
  apply List.ext_getElem?
  intro i
  by_cases hi : i < t.length
  · rw [q1, q2, List.getElem?_append_left (by simpa using hi), List.getElem?_append_left (by simpa using hi)]
  · exact k2 i (by simpa using Nat.le_of_not_lt hi)

/-! ### Examples -/

example : (do let v ← Str.insert exE (strObj [97, 98] 0) (zstr [99, 100]) 1; let v ← Str.remove exE v 1 2; Str.z v) = .ok [97, 98] := by
  decide +kernel
example : (do let v ← Str.remove exE (strObj [97, 98, 99] 0) 1 1; let v ← Str.insert exE v (zstr [98]) 1; Str.z v) = .ok [97, 98, 99] ∧
    OccursAt [97, 98, 99] [98] 1 := ⟨by decide +kernel, [97], [99], rfl, rfl⟩
example : (do let v ← Str.replaceC (strObj [97, 98, 97] 0) (zstr [97, 98]) (zstr [120, 121])
              let w ← Str.replaceC v (zstr [120, 121]) (zstr [97, 98])
              let t ← Str.z v
              let u ← Str.z w
              .ok (t, u)) = .ok ([120, 121, 120], [97, 98, 97]) ∧ ([120, 121] : Text).Nodup := by decide +kernel
/-- Without the condition that the new characters do not occur it is false: "ax" becomes "xx" and then "aa". -/
example : (do let v ← Str.replaceC (strObj [97, 120] 0) (zstr [97]) (zstr [120])
              let w ← Str.replaceC v (zstr [120]) (zstr [97])
              Str.z w) = .ok [97, 97] := by decide +kernel
example : (do let v ← Vec.insert exE exV [some 9, some 0, some 0, some 0] 1; let v ← Vec.remove exE v 1 .stable; .ok v.elems) = .ok exV.elems ∧ exV.elsize ≤ 4 ∧
    1 < Vec.length exV := by decide +kernel
example : (do let v ← Path.build exE none [zstr [97], zstr [98], zstr [99]]; let z ← Path.pop v.mem; scanZ z) = .ok [97, 47, 98] := by
  decide +kernel
example : (do let v ← Str.strip 9 (strObj [32, 97, 32, 98, 32] 0)
              let w ← Str.strip 9 v
              let t ← Str.z v
              let u ← Str.z w
              .ok (t, u)) = .ok ([97, 32, 98], [97, 32, 98]) := by decide +kernel
example : (do let z ← Path.validate (zstr [97, 92, 98]); let y ← Path.validate z; .ok (z, y)) =
    .ok (zstr [97, 47, 98], zstr [97, 47, 98]) := by decide +kernel

end Vita
