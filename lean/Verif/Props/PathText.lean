import Verif.Model.PathText
import Verif.Props.StrQuery
import Mathlib.Data.List.Induction
/-!
# Path texts (C58, C59, C60, C75)
-/

namespace Vita
open Out Spec
seal wadd wsub wmul

theorem sepZ_cstr : CStr Path.sepZ [47] := ⟨by decide, by decide⟩

/-! ### C58 -/

theorem getc_at {z : Mem} {t a b : Text} {x : UInt8} (h : scanZ z = .ok t) (e : t = a ++ x :: b) : getc z a.length = .ok x :=
  getc_of h (by rw [e]; simp)

theorem scanZ_set_zero {z : Mem} {t : Text} (h : scanZ z = .ok t) {i : Nat} (hi : i < t.length) :
    scanZ (z.set i (some 0)) = .ok (t.take i) := by
  obtain ⟨⟨rest, rfl⟩, h0⟩ := scanZ_eq_ok.1 h
  rw [scanZ_eq_ok]
  refine ⟨⟨(t.drop (i + 1)).map some ++ some 0 :: rest, ?_⟩, fun hm => h0 (List.mem_of_mem_take hm)⟩
  rw [List.set_append_left _ _ (by simpa using hi), List.set_eq_take_append_cons_drop, if_pos (by simpa using hi)]
  simp

theorem popLoop_ok {z : Mem} {t a b : Text} (h : scanZ z = .ok t) (e : t = a ++ 47 :: b) (hb : 47 ∉ b) :
    ∀ j, j ≤ b.length → Path.popLoop (a.length + 1 + j) z = .ok (z.set a.length (some 0))
  | 0, _ => by
    have hl := scanZ_length h
    rw [Nat.add_zero, Path.popLoop, getc_at h e, bind_ok, if_pos rfl, putc_ok (by rw [e] at hl; simp at hl; omega)]
  | j + 1, hj => by
    have hg : getc z (a.length + 1 + j) = .ok b[j] := by
      refine getc_of h ?_
      rw [e, List.getElem?_append_right (by omega), show a.length + 1 + j - a.length = j + 1 from by omega]
      simp
    rw [← Nat.add_assoc, Path.popLoop, hg, bind_ok, if_neg (show ¬ b[j] = 47 from fun hc => hb (hc ▸ List.getElem_mem _)), popLoop_ok h e hb j (by omega)]

/-- What `vt_str_find` does on a view of a C string. -/
theorem find_view {z : Mem} {t : Text} (h : CStr z t) (h0 : t ≠ []) {v : Arr} (hv : v.mem = z) (hl : v.len = t.length) :
    Str.find v Path.sepZ = .ok (findSub t [47]) := by
  have hp := List.length_pos_iff.2 h0
  unfold Str.find
  rw [strlen_ok sepZ_cstr.text, bind_ok, decide_eq_true (show ([47] : Text).length ≤ v.len by rw [hl]; exact hp), enforce_true, bind_ok, hv,
    strstr0 h.text sepZ_cstr.text]

theorem occurs_singleton {t : Text} {c : UInt8} : Occurs t [c] ↔ c ∈ t := by
  rw [occurs_iff_infix]
  constructor
  · rintro ⟨a, b, rfl⟩; simp
  · intro h
    obtain ⟨a, b, rfl⟩ := List.append_of_mem h
    exact ⟨a, b, by simp⟩

/-- **C58** (partial: the path is not empty) A path without separator is left alone; otherwise exactly the text before the last separator remains,
and the only byte of memory that changes is that separator. -/
theorem C58_pop_partial {z : Mem} {t : Text} (h : CStr z t) (h0 : t ≠ []) :
    (47 ∉ t → Path.pop z = .ok z) ∧
    (∀ a b, t = a ++ 47 :: b → 47 ∉ b → ∃ z', Path.pop z = .ok z' ∧ CStr z' a ∧ z'.length = z.length ∧
      ∀ i, i ≠ a.length → z'[i]? = z[i]?) := by
  have hp := List.length_pos_iff.2 h0
  have hlim := h.lim
  have hg : getc z (t.length - 1) = .ok (t.getLast h0) := by
    rw [getc_text h.text (by omega), List.getLast_eq_getElem]
  constructor
  · intro hn
    unfold Path.pop Str.createStatic
    simp only [strlen_ok h.text, bind_ok]
    rw [wsub_eq (by omega) (by omega), hg, bind_ok, if_neg (show ¬ t.getLast h0 = 47 from fun hc => hn (hc ▸ List.getLast_mem h0)),
      find_view h h0 rfl rfl, findSub_none.2 (fun ho => hn (occurs_singleton.1 ho)), bind_ok]
  · intro a b e hb
    have hl := scanZ_length h.text
    have he : Path.pop z = .ok (z.set a.length (some 0)) := by
      unfold Path.pop Str.createStatic
      simp only [strlen_ok h.text, bind_ok]
      rw [wsub_eq (by omega) (by omega), hg, bind_ok]
      by_cases hb0 : b = []
      · subst hb0
        have h1 : t.getLast h0 = 47 := by simp [e]
        have h2 : t.length - 1 = a.length := by simp [e]
        rw [if_pos h1, h2, putc_ok (by omega)]
      · rw [if_neg, find_view h h0 rfl rfl]
        · cases hf : findSub t [47] with
          | none => exact absurd (occurs_singleton.2 (by rw [e]; simp)) (findSub_none.1 hf)
          | some i =>
            rw [bind_ok]
            have := popLoop_ok h.text e hb b.length (Nat.le_refl _)
            rw [show a.length + 1 + b.length = t.length by rw [e]; simp; omega] at this
            exact this
        · intro hc
          refine hb (hc ▸ ?_)
          simp only [e]
          rw [List.getLast_append_of_ne_nil _ (List.cons_ne_nil _ _), List.getLast_cons hb0]
          exact List.getLast_mem hb0
    refine ⟨_, he, ⟨?_, ?_⟩, by simp, ?_⟩
    · rw [scanZ_set_zero h.text (by rw [e]; simp), e]; simp
    · rw [e] at hlim; simp at hlim; omega
    · intro i hi
      rw [List.getElem?_set_ne (Ne.symm hi)]

/-- Full C58 includes the empty path; there the character before the text is read. -/
theorem C58_pop_empty_undefined {z : Mem} (h : CStr z []) (hl : z.length < 2 ^ 64) : Path.pop z = .ub := by
  unfold Path.pop Str.createStatic
  simp only [strlen_ok h.text, bind_ok, List.length_nil]
  have : wsub 0 1 = 2 ^ 64 - 1 := by decide +kernel
  rw [this, getc, List.getElem?_eq_none (by omega)]
  rfl

/-- Example: popping "a/b" and "a/b/". -/
example : Path.pop (zstr [97, 47, 98]) = .ok [some 97, some 0, some 98, some 0] ∧
    (Path.pop (zstr [97, 47, 98, 47])).mapOk scanZ = .ok (.ok [97, 47, 98]) := by decide +kernel

/-! ### C59 -/

theorem baseLoop_hit {z : Mem} {t a b : Text} (h : CStr z t) (e : t = a ++ 47 :: b) (ha : a ≠ []) (hb : b ≠ []) (hn : 47 ∉ b.dropLast) :
    ∀ j, j ≤ b.length → Path.baseLoop z t.length (a.length + j) = .ok (some (a.length + 1)) := by
  have hlim := h.lim
  have ha' := List.length_pos_iff.2 ha
  have hb' := List.length_pos_iff.2 hb
  have htl : t.length = a.length + 1 + b.length := by rw [e]; simp; omega
  intro j
  induction j with
  | zero =>
    intro _
    obtain ⟨n, hn⟩ : ∃ n, a.length = n + 1 := ⟨a.length - 1, by omega⟩
    rw [Nat.add_zero, hn, Path.baseLoop, ← hn, getc_at h.text e, bind_ok, wsub_eq (by omega) (by omega), if_pos ⟨rfl, by omega⟩]
    congr 2; omega
  | succ j ih =>
    intro hj
    have hg : getc z (a.length + j + 1) = .ok b[j] := by
      refine getc_of h.text ?_
      rw [e, List.getElem?_append_right (by omega), show a.length + j + 1 - a.length = j + 1 from by omega]
      simp
    rw [← Nat.add_assoc, Path.baseLoop, hg, bind_ok, wsub_eq (by omega) (by omega), if_neg, ih (by omega)]
    rintro ⟨h1, h2⟩
    refine hn ?_
    rw [← h1, List.mem_iff_getElem]
    exact ⟨j, by rw [List.length_dropLast]; omega, by simp⟩

theorem baseLoop_miss {z : Mem} {t b : Text} {x : UInt8} (h : CStr z t) (e : t = x :: b) (hn : 47 ∉ b.dropLast) :
    ∀ j, j ≤ b.length → Path.baseLoop z t.length j = .ok none := by
  have hlim := h.lim
  have htl : t.length = b.length + 1 := by rw [e]; simp
  intro j
  induction j with
  | zero => intro _; rfl
  | succ j ih =>
    intro hj
    have hg : getc z (j + 1) = .ok b[j] := by
      refine getc_of h.text ?_
      rw [e]; simp
    rw [Path.baseLoop, hg, bind_ok, wsub_eq (by omega) (by omega), if_neg, ih (by omega)]
    rintro ⟨h1, h2⟩
    refine hn ?_
    rw [← h1, List.mem_iff_getElem]
    exact ⟨j, by rw [List.length_dropLast]; omega, by simp⟩

theorem canFind_view {z : Mem} {t : Text} (h : CStr z t) (h0 : t ≠ []) {v : Arr} (hv : v.mem = z) (hl : v.len = t.length) {k : Nat}
    (hk : t.length < k) : Str.canFind k v Path.sepZ = .ok (positions t [47]).length := by
  have hp := List.length_pos_iff.2 h0
  unfold Str.canFind
  rw [strlen_ok sepZ_cstr.text, bind_ok, decide_eq_true (show ([47] : Text).length ≤ v.len by rw [hl]; exact hp), enforce_true, bind_ok, hv,
    countLoop_ok h.text sepZ_cstr.text (by simp) k 0 0 (by omega) (by omega)]
  simp

theorem positions_ne {t : Text} (h : 47 ∈ t) : (positions t [47]).length ≠ 0 := by
  obtain ⟨i, hi⟩ := occurs_singleton.2 h
  obtain ⟨j, hj, -⟩ := (C27_positions_spec (t := t) (ss := [47]) (by simp)).2.2 i hi
  intro hc
  rw [List.length_eq_zero_iff.1 hc] at hj
  simp at hj

/-- Both cases of the last part of the function: `st` is the destination before the last step. -/
theorem basename_dest {E : Env} {t : Text} (ht : t.length < 2 ^ 56) (h0 : t ≠ []) {s : Option Arr} (hs : ∀ v, s = some v → ∃ u, IsStr v u) {β : Type}
    {f : Arr → Out β} {Q : β → Prop} {B : Nat} (hB : capOf s + t.length + 56 ≤ B)
    (hf : ∀ v, IsStr v (match s with | none => List.replicate t.length 63 | some v => textAt v.mem) → OkOr E B (f v) Q) :
    OkOr E B (do
      let st ← (match s with
        | none => Str.createLen E t.length
        | some s => .ok s)
      let st ← (if st.len < t.length then Str.reserve E st (wsub t.length st.len) else .ok st)
      f st) Q := by
  have hp := List.length_pos_iff.2 h0
  cases s with
  | none =>
    refine (createLen_okOr hp (by omega)).bind ?_
    rintro v ⟨hv, -, -⟩
    rw [if_neg (by rw [hv.len]; simp), bind_ok]
    exact hf v hv
  | some v =>
    obtain ⟨u, hu⟩ := hs v rfl
    have hu' : textAt v.mem = u := by rw [textAt, hu.text]
    simp only [hu'] at hf
    rw [capOf] at hB
    rw [bind_ok]
    split
    · rw [wsub_eq (by omega) (by omega)]
      refine (reserve_okOr hu (by omega) (by omega)).bind ?_
      rintro v' ⟨hv', -⟩
      exact hf v' hv'
    · rw [bind_ok]; exact hf v hu

theorem basename_eq {E : Env} {z : Mem} {t : Text} (h : CStr z t) (h0 : t ≠ []) (hm : 47 ∈ t) {k : Nat} (hk : t.length < k) {s : Option Arr}
    {ptr : Option Nat} (hb : Path.baseLoop z t.length (t.length - 1) = .ok ptr) :
    Path.basename E k s z = (do
      let st ← (match s with
        | none => Str.createLen E t.length
        | some s => .ok s)
      let st ← (if st.len < t.length then Str.reserve E st (wsub t.length st.len) else .ok st)
      match ptr with
      | none => .ok (some st)
      | some i => do
        let st ← Str.clear st
        let st ← Str.append E st (z.drop i)
        .ok (some st)) := by
  have hp := List.length_pos_iff.2 h0
  have hlim := h.lim
  unfold Path.basename Str.createStatic
  simp only [strlen_ok h.text, bind_ok]
  rw [canFind_view h h0 rfl rfl hk, bind_ok, if_neg (positions_ne hm), wsub_eq (by omega) (by omega), hb]
  rfl

theorem basename_hit {E : Env} {z : Mem} {a b : Text} (h : CStr z (a ++ 47 :: b)) (ha : a ≠ []) (hb : b ≠ []) (hn : 47 ∉ b.dropLast) {k : Nat}
    (hk : (a ++ 47 :: b).length < k) {s : Option Arr} (hs : ∀ v, s = some v → ∃ u, IsStr v u) :
    OkOr E (capOf s + (a ++ 47 :: b).length + 56) (Path.basename E k s z) fun r => ∃ v, r = some v ∧ IsStr v b := by
  have e : (a ++ 47 :: b).length - 1 = a.length + b.length := by simp
  rw [basename_eq h (by simp) (by simp) hk (by rw [e]; exact baseLoop_hit h rfl ha hb hn _ (Nat.le_refl _))]
  refine basename_dest h.lim (by simp) hs (by simp <;> omega) ?_
  intro v hv
  obtain ⟨v1, e1, s1, -, -⟩ := clear_ok hv
  simp only [e1, bind_ok]
  have hd : CStr (z.drop (a.length + 1)) b := by
    have := h.drop (i := a.length + 1) (by simp)
    rwa [show (a ++ 47 :: b).drop (a.length + 1) = b by rw [List.drop_append]; simp] at this
  refine (append_okOr s1 hd hb).bind ?_
  rintro v2 ⟨h2, -, -⟩
  exact OkOr.ok ⟨v2, rfl, by simpa using h2⟩

/-- **C59** (partial: the last separator is neither the first nor the last character) The base name is the text after the last separator. -/
theorem C59_basename_partial {E : Env} {z : Mem} {a b : Text} (h : CStr z (a ++ 47 :: b)) (hn : 47 ∉ b) (ha : a ≠ []) (hb : b ≠ []) {k : Nat}
    (hk : (a ++ 47 :: b).length < k) {s : Option Arr} (hs : ∀ v, s = some v → ∃ u, IsStr v u) :
    OkOr E (capOf s + (a ++ 47 :: b).length + 56) (Path.basename E k s z) fun r => ∃ v, r = some v ∧ IsStr v b :=
  basename_hit h ha hb (fun hc => hn (List.dropLast_subset _ hc)) hk hs

/-- Without separator the destination is returned as it is (a null pointer if none was given), not the whole path. -/
theorem C59_no_separator {E : Env} {z : Mem} {t : Text} (h : CStr z t) (h0 : t ≠ []) (hn : 47 ∉ t) {k : Nat} (hk : t.length < k) (s : Option Arr) :
    Path.basename E k s z = .ok s := by
  unfold Path.basename Str.createStatic
  simp only [strlen_ok h.text, bind_ok]
  rw [canFind_view h h0 rfl rfl hk, bind_ok, positions_none (fun ho => hn (occurs_singleton.1 ho)), List.length_nil, if_pos rfl]

/-- The empty path ends the program. -/
theorem C59_empty_exits {E : Env} {z : Mem} (h : CStr z []) (k : Nat) (s : Option Arr) : Path.basename E k s z = .exit .enforce := by
  unfold Path.basename Str.createStatic Str.canFind
  simp only [strlen_ok h.text, bind_ok, strlen_ok sepZ_cstr.text]
  rfl

/-- An absolute path of one segment, such as "/abc": a new string of question marks, or the old text of the destination. -/
theorem C59_absolute_single_segment {E : Env} {z : Mem} {b : Text} (h : CStr z (47 :: b)) (hn : 47 ∉ b) {k : Nat} (hk : b.length + 1 < k)
    {s : Option Arr} (hs : ∀ v, s = some v → ∃ u, IsStr v u) :
    OkOr E (capOf s + b.length + 57) (Path.basename E k s z) fun r => ∃ v, r = some v ∧
      IsStr v (match s with | none => List.replicate (b.length + 1) 63 | some v => textAt v.mem) := by
  have e : (47 :: b).length - 1 = b.length := by simp
  rw [basename_eq h (by simp) (by simp) (by simpa using hk)
    (by rw [e]; exact baseLoop_miss h rfl (fun hc => hn (List.dropLast_subset _ hc)) _ (Nat.le_refl _))]
  refine basename_dest h.lim (by simp) hs (by simp <;> omega) ?_
  intro v hv
  exact OkOr.ok ⟨v, rfl, by cases s <;> exact hv⟩

/-- A trailing separator is taken for a part of the base name. -/
theorem C59_trailing_separator {E : Env} {z : Mem} {a b : Text} (h : CStr z (a ++ 47 :: (b ++ [47]))) (hn : 47 ∉ b) (ha : a ≠ []) {k : Nat}
    (hk : (a ++ 47 :: (b ++ [47])).length < k) {s : Option Arr} (hs : ∀ v, s = some v → ∃ u, IsStr v u) :
    OkOr E (capOf s + (a ++ 47 :: (b ++ [47])).length + 56) (Path.basename E k s z) fun r => ∃ v, r = some v ∧ IsStr v (b ++ [47]) :=
  basename_hit h ha (by simp) (by simpa using hn) hk hs

/-- Examples: "a/bc", "/abc", "a/b/". -/
example : (Path.basename exE 9 none (zstr [97, 47, 98, 99])).mapOk (Option.map Str.z) = .ok (some (.ok [98, 99])) ∧
    (Path.basename exE 9 none (zstr [47, 97, 98, 99])).mapOk (Option.map Str.z) = .ok (some (.ok [63, 63, 63, 63])) ∧
    (Path.basename exE 9 none (zstr [97, 47, 98, 47])).mapOk (Option.map Str.z) = .ok (some (.ok [98, 47])) := by decide +kernel

/-! ### C60 -/

/-- **C60**, building: the segments with single separators in between, after the text the destination already has. -/
theorem C60_build {E : Env} {ps : List Mem} {ts : List Text} (h : List.Forall₂ CStr ps ts) (hne : ∀ x ∈ ts, x ≠ []) (h1 : ts ≠ []) :
    (∀ v t, IsStr v t → OkOr E (t.length + (joinWith [47] ts).length + 1) (Path.build E (some v) ps) fun v' => IsStr v' (t ++ joinWith [47] ts)) ∧
    OkOr E ((joinWith [47] ts).length + 72) (Path.build E none ps) fun v' => IsStr v' (joinWith [47] ts) :=
  C30_join sepZ_cstr (by simp) h hne h1

/-- **C60**, building from a list of arguments. -/
theorem C60_build_n {E : Env} {ps : List Mem} {ts : List Text} (h : List.Forall₂ CStr ps ts) (hne : ∀ x ∈ ts, x ≠ []) (h1 : ts ≠ [])
    (hl : ps.length < 2 ^ 31) :
    (∀ v t, IsStr v t → OkOr E (t.length + (joinWith [47] ts).length + 8 * ps.length + 56) (Path.buildN E (some v) ps) fun v' => IsStr v' (t ++ joinWith [47] ts)) ∧
    OkOr E ((joinWith [47] ts).length + 8 * ps.length + 72) (Path.buildN E none ps) fun v' => IsStr v' (joinWith [47] ts) := by
  have hp : 0 < ps.length := by rw [h.length_eq]; exact List.length_pos_iff.2 h1
  have key : ∀ (s : Option Arr) (Q : Arr → Prop) (B : Nat), 8 * ps.length + 56 ≤ B → OkOr E B (Path.build E s ps) Q →
      OkOr E B (Path.buildN E s ps) Q := by
    intro s Q B hB hq
    unfold Path.buildN
    rw [decide_eq_true hp, dassert_true, bind_ok, wmul_eq (by omega)]
    cases ha : E.allocOk arrStructSize with
    | false => rw [vtCalloc_fail (by decide) ha]; exact Or.inr ⟨rfl, _, by simp [arrStructSize]; omega, ha⟩
    | true =>
      rw [vtCalloc_ok (by decide) ha, bind_ok]
      cases hb : E.allocOk (ps.length * 8) with
      | false => rw [vtCalloc_fail (by omega) hb]; exact Or.inr ⟨rfl, _, by omega, hb⟩
      | true => rw [vtCalloc_ok (by omega) hb, bind_ok]; exact hq
  exact ⟨fun v t hv => key _ _ _ (by omega) (((C60_build h hne h1).1 v t hv).le), key _ _ _ (by omega) (C60_build h hne h1).2.le⟩

theorem validateLoop_ok : ∀ (todo done : Text) (rest : Mem),
    Path.validateLoop todo.length (todo.map some ++ (done.map some ++ rest)) =
      .ok ((todo.map fun c => if c = 92 then 47 else c).map some ++ (done.map some ++ rest)) := by
  intro todo
  induction todo using List.reverseRecOn with
  | nil => intro done rest; rfl
  | append_singleton todo c ih =>
    intro done rest
    have hg : getc ((todo ++ [c]).map some ++ (done.map some ++ rest)) todo.length = .ok c := by
      rw [List.map_append, List.append_assoc]
      exact getc_mid _ _ _ (by simp)
    rw [List.length_append, List.length_singleton, Path.validateLoop, hg, bind_ok]
    by_cases hc : c = 92
    · rw [if_pos hc, List.map_append, List.append_assoc, List.map_singleton, List.singleton_append, putc_mid _ _ _ _ (by simp), bind_ok]
      rw [show (List.map some todo ++ some 47 :: (List.map some done ++ rest)) = List.map some todo ++ (List.map some (47 :: done) ++ rest) by simp,
        ih (47 :: done) rest]
      simp [hc]
    · rw [if_neg hc, bind_ok]
      rw [show (List.map some (todo ++ [c]) ++ (List.map some done ++ rest)) = List.map some todo ++ (List.map some (c :: done) ++ rest) by simp,
        ih (c :: done) rest]
      simp [hc]

/-- **C60**, validation: every backslash of the text becomes a separator; nothing else changes. -/
theorem C60_validate {z : Mem} {t : Text} (h : CStr z t) :
    ∃ z', Path.validate z = .ok z' ∧ CStr z' (t.map fun c => if c = 92 then 47 else c) ∧ z'.length = z.length ∧
      ∀ i, t.length ≤ i → z'[i]? = z[i]? := by
  obtain ⟨⟨rest, rfl⟩, h0⟩ := scanZ_eq_ok.1 h.text
  refine ⟨(t.map fun c => if c = 92 then 47 else c).map some ++ some 0 :: rest, ?_, ⟨?_, by simpa using h.lim⟩, ?_, ?_⟩
  · unfold Path.validate
    rw [strlen_ok h.text, bind_ok]
    exact validateLoop_ok t [] (some 0 :: rest)
  · refine scanZ_append ?_
    simp only [List.mem_map, not_exists, not_and]
    intro x hx
    split
    · decide
    · intro e; exact h0 (e ▸ hx)
  · simp
  · intro i hi
    rw [List.getElem?_append_right (by simpa using hi), List.getElem?_append_right (by simpa using hi)]
    simp

/-- Example: "a\b/c". -/
example : (Path.validate (zstr [97, 92, 98, 47, 99])).mapOk scanZ = .ok (.ok [97, 47, 98, 47, 99]) := by decide +kernel

theorem create_text_okOr {E : Env} {z : Mem} {t : Text} (hz : CStr z t) (h0 : t ≠ []) : OkOr E (t.length + 56) (Str.create E z) fun v => IsStr v t :=
  (C15_create hz h0).mono fun _ h => h.1

/-- **C60**, tilde expansion (partial: the path is not empty, and not "~" alone unless the build is a release one): a leading tilde is replaced by the home
directory; any other path, or any path if there is no home directory, is copied. -/
theorem C60_expand_tilda_partial {E : Env} {z : Mem} {t : Text} (h : CStr z t) (h0 : t ≠ []) (home : Option Mem) {ht : Text}
    (hh : ∀ m, home = some m → CStr m ht) :
    (∀ r, t = 126 :: r → home ≠ none → (r ≠ [] ∨ E.debug = false ∧ E.allocOk (ht.length + 1) = true) →
      OkOr E (ht.length + t.length + 56) (Path.expandTilda E home z) fun v => IsStr v (ht ++ r)) ∧
    ((t.head? ≠ some 126 ∨ home = none) → OkOr E (t.length + 56) (Path.expandTilda E home z) fun v => IsStr v t) := by
  have hp := List.length_pos_iff.2 h0
  constructor
  · intro r e hn hr
    subst e
    obtain ⟨m, rfl⟩ := Option.ne_none_iff_exists'.1 hn
    have hm := hh m rfl
    unfold Path.expandTilda
    refine (create_text_okOr h h0).bind fun v hv => ?_
    have hi : Str.indexOf v 126 = .ok ((0 : Nat) : Int) := by
      rw [Str.indexOf, strchr_ok 126 (by decide) hv.text]
      simp
    rw [hi, bind_ok, if_neg (by rw [hv.len]; simp)]
    obtain ⟨v1, e1, s1, c1, -⟩ := remove_ok (E := E) hv (i := 0) (n := 1) (by omega) (by simp)
    simp only [Int.toNat_natCast, e1, bind_ok]
    simp only [List.take_zero, List.nil_append, Nat.zero_add, List.drop_succ_cons, List.drop_zero] at s1
    rcases hr with hr | ⟨hr, ha⟩
    · exact (insert_okOr s1 hm (i := 0) (List.length_pos_iff.2 hr)).mono fun v h => by simpa using h.1
    · by_cases hr0 : r = []
      · subst hr0
        obtain ⟨v2, e2, s2, -, -⟩ := insert_ok (E := E) s1 hm.text (by have := hm.lim; omega) (i := 0) (by simp) (Or.inr hr) (Or.inr (by simpa using ha))
        rw [e2]
        exact OkOr.ok (by simpa using s2)
      · exact (insert_okOr s1 hm (i := 0) (List.length_pos_iff.2 hr0)).mono fun v h => by simpa using h.1
  · intro hc
    unfold Path.expandTilda
    refine (create_text_okOr h h0).bind fun v hv => ?_
    rw [Str.indexOf, strchr_ok 126 (by decide) hv.text, bind_ok]
    rcases hc with hc | hc
    · cases t with
      | nil => exact absurd rfl h0
      | cons x r =>
        have hx : x ≠ 126 := fun e => hc (by rw [e]; rfl)
        by_cases hm : (126 : UInt8) ∈ x :: r
        · rw [if_pos hm, bind_ok, if_pos (Or.inr (by rw [List.idxOf_cons_ne _ hx]; simp; omega))]
          exact OkOr.ok hv
        · rw [if_neg hm, bind_ok, if_pos (Or.inr (by decide))]
          exact OkOr.ok hv
    · subst hc
      split <;> simp only [bind_ok] <;> split <;> exact OkOr.ok hv

/-- Full C60 includes "~" alone, which a debug build does not survive. -/
theorem C60_tilda_alone_exits {E : Env} (hD : E.debug = true) (ha : E.allocOk arrStructSize = true) (hb : E.allocOk 2 = true) (home : Mem) :
    Path.expandTilda E (some home) (zstr [126]) = .exit .dbgAssert := by
  have h : CStr (zstr [126]) [126] := cstr_zstr (by decide) (by decide)
  unfold Path.expandTilda
  rcases create_text_okOr (E := E) h (by simp) with ⟨v, e, hv⟩ | ⟨e, -⟩
  · rw [e, bind_ok, Str.indexOf, strchr_ok 126 (by decide) hv.text]
    simp only [bind_ok]
    rw [if_pos (by simp), bind_ok, if_neg (by rw [hv.len]; simp)]
    obtain ⟨v1, e1, s1, c1, -⟩ := remove_ok (E := E) hv (i := 0) (n := 1) (by omega) (by simp)
    have e0 : ((List.idxOf 126 [(126 : UInt8)] : Nat) : Int).toNat = 0 := by decide
    simp only [e0, e1, bind_ok]
    unfold Str.insert
    rw [decide_eq_false (by rw [s1.len]; simp), dassert_false hD]
    rfl
  · obtain ⟨v, ev, -⟩ := createLen_ok (E := E) (n := 1) (by omega) (by omega) ha hb
    exfalso
    unfold Str.create at e
    rw [strlen_ok h.text, bind_ok, show ([126] : Text).length = 1 from rfl, ev, bind_ok] at e
    have hv : IsStr v (List.replicate 1 63) := by
      obtain ⟨v', ev', h', -⟩ := createLen_ok (E := E) (n := 1) (by omega) (by omega) ha hb
      rw [ev] at ev'
      injection ev' with ev'
      exact ev' ▸ h'
    obtain ⟨v2, e2, -⟩ := setN_ok (E := E) hv (ys := [126]) (by decide) h.begins (by simp) (by simp)
    rw [show ([126] : Text).length = 1 from rfl] at e2
    rw [e2] at e
    cases e

/-- Example: "~/a" with home "/h". -/
example : (Path.expandTilda exE (some (zstr [47, 104])) (zstr [126, 47, 97])).mapOk Str.z = .ok (.ok [47, 104, 47, 97]) := by decide +kernel

/-! ### C75 -/

/-- **C75**, the working directory (its text is what `getcwd` stored in the block `z`). -/
theorem C75_cwd {E : Env} {z : Mem} {t : Text} (h : scanZ z = .ok t) (hb : z.length = t.length + 1) (hl : z.length < 2 ^ 56)
    (ha : E.allocOk arrStructSize = true) : ∃ v, Path.getCwd E (some z) = .ok v ∧ IsStr v t := by
  simp only [Path.getCwd, Str.takeOwnership]
  rw [vtCalloc_ok (by decide) ha, bind_ok, strlen_ok h, bind_ok]
  exact ⟨_, rfl, rfl, rfl, h, rfl, hb, by simp only; omega⟩

theorem createCapacity_mem {E : Env} {n : Nat} (h0 : 0 < n) (hn : n < 2 ^ 55) :
    OkOr E (n + 56) (Str.createCapacity E n) fun v => v = ⟨0, n, 1, 0, false, some 0 :: (List.replicate (n - 1) (some 63) ++ [some 0])⟩ := by
  unfold Str.createCapacity Str.createLen
  rw [decide_eq_true h0, dassert_true, bind_ok, bind_ok, wadd_eq (by omega), wmul_eq (by omega), Nat.mul_one]
  cases ha : E.allocOk arrStructSize with
  | false => rw [vtCalloc_fail (by decide) ha]; exact Or.inr ⟨rfl, _, by simp [arrStructSize], ha⟩
  | true =>
    rw [vtCalloc_ok (by decide) ha, bind_ok]
    cases hb : E.allocOk (n + 1) with
    | false => rw [vtCalloc_fail (by omega) hb]; exact Or.inr ⟨rfl, _, by omega, hb⟩
    | true =>
      rw [vtCalloc_ok (by omega) hb, bind_ok]
      have e1 : vtMemset (List.replicate (n + 1) (some 0)) 0 63 n = .ok (List.replicate n (some 63) ++ [some 0]) := by
        rw [vtMemset, if_neg (by omega), memset, writeN_ok (by simp)]
        simp
      obtain ⟨k, rfl⟩ : ∃ k, n = k + 1 := ⟨n - 1, by omega⟩
      rw [e1, bind_ok, bind_ok, Str.clear]
      simp only [List.replicate_succ, List.cons_append]
      have := putc_mid [] (List.replicate k (some 63) ++ [some 0]) (some 63) 0 rfl
      simp only [List.nil_append, List.length_nil] at this
      rw [this, bind_ok]
      exact OkOr.ok (by simp)

/-- The text of `exeLocation`, in terms of the size of the buffer. -/
theorem exeLocation_text {E : Env} {l : Text} (h0 : l ≠ []) (hz : 0 ∉ l) (hl : l.length ≤ Path.pathMax) :
    OkOr E (Path.pathMax + 56) (Path.exeLocation E (some l)) fun r => ∃ v, r = some v ∧ Str.length v = l.length ∧
      Str.z v = .ok (l ++ List.replicate (Path.pathMax - l.length) 63) ∧ (l.length = Path.pathMax → IsStr v l) := by
  have hp := List.length_pos_iff.2 h0
  unfold Path.exeLocation
  refine (createCapacity_mem (by decide) (by decide)).bind ?_
  rintro v rfl
  simp only [List.take_of_length_le hl]
  rw [if_neg (by omega)]
  obtain ⟨k, hk⟩ : ∃ k, l.length = k + 1 := ⟨l.length - 1, by omega⟩
  have hw : writeN (some 0 :: (List.replicate (Path.pathMax - 1) (some 63) ++ [some 0])) 0 (l.map some) =
      .ok ((l ++ List.replicate (Path.pathMax - l.length) 63).map some ++ some 0 :: []) := by
    rw [writeN_ok (by simp; omega)]
    congr 1
    rw [List.take_zero, List.nil_append, List.length_map, Nat.zero_add, hk, List.drop_succ_cons, List.drop_append_of_le_length (by simp; omega)]
    simp; omega
  rw [hw, bind_ok]
  have ht : scanZ ((l ++ List.replicate (Path.pathMax - l.length) 63).map some ++ some 0 :: []) =
      .ok (l ++ List.replicate (Path.pathMax - l.length) 63) := by
    refine scanZ_append ?_
    simp only [List.mem_append, List.mem_replicate, not_or, not_and]
    exact ⟨hz, fun _ => by decide⟩
  refine OkOr.ok ⟨_, rfl, rfl, ht, fun he => ⟨rfl, rfl, ?_, rfl, ?_, show Path.pathMax + 1 < 2 ^ 56 by decide⟩⟩
  · simpa [he] using ht
  · simp [he]

/-- **C75**, the location of the program (partial: only if its path has exactly `PATH_MAX` bytes is the text the path). In general the bytes of the path come
first and the length is right, but the text goes on with question marks up to the end of the buffer, because `readlink` stores no terminator. -/
theorem C75_exe_location_partial {E : Env} {l : Text} (h0 : l ≠ []) (hz : 0 ∉ l) (hl : l.length ≤ 4096) :
    OkOr E 4152 (Path.exeLocation E (some l)) fun r => ∃ v, r = some v ∧ Str.length v = l.length ∧
      Str.z v = .ok (l ++ List.replicate (4096 - l.length) 63) ∧ (l.length = 4096 → IsStr v l) := by
  have h := exeLocation_text (E := E) h0 hz hl
  rw [show Path.pathMax = 4096 from rfl] at h
  exact h

/-- The text differs from the path of the program, for every path shorter than `PATH_MAX`. -/
theorem C75_exe_location_wrong {E : Env} {l : Text} (h0 : l ≠ []) (hz : 0 ∉ l) (hl : l.length < 4096) :
    OkOr E 4152 (Path.exeLocation E (some l)) fun r => ∃ v t, r = some v ∧ Str.z v = .ok t ∧ t ≠ l := by
  refine (C75_exe_location_partial h0 hz (Nat.le_of_lt hl)).mono ?_
  rintro r ⟨v, e, -, h, -⟩
  refine ⟨v, _, e, h, fun hc => ?_⟩
  have := congrArg List.length hc
  simp at this
  omega

/-- A path of more than `PATH_MAX` bytes is cut off. -/
theorem C75_exe_location_cut {E : Env} (l : Text) : Path.exeLocation E (some l) = Path.exeLocation E (some (l.take 4096)) := by
  unfold Path.exeLocation Path.pathMax
  simp only [List.take_take, Nat.min_self]

/-- If the link cannot be read, nothing is returned. -/
theorem C75_exe_location_none {E : Env} : OkOr E 4152 (Path.exeLocation E none) fun r => r = none := by
  unfold Path.exeLocation Path.pathMax
  exact (createCapacity_mem (by decide) (by decide)).bind fun _ _ => OkOr.ok rfl

/-- Example: a program at "/a" (the hypotheses hold). -/
example : ([47, 97] : Text) ≠ [] ∧ 0 ∉ ([47, 97] : Text) ∧ ([47, 97] : Text).length < 4096 := by decide

end Vita
