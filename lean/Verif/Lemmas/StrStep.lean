import Verif.Lemmas.StrOps
import Verif.Spec.TextOps
/-! Each editing call simulates its specification. -/

namespace Vita
open Out Spec

seal wadd wsub wmul

/-- Perform one editing call.  Loops get `v.len + k` iterations. -/
def applyOp (E : Env) (k : Nat) (v : Arr) : StrOp → Out Arr
  | .append z => Str.append E v z
  | .appendN z n => Str.appendN E v z n
  | .appendf out => Str.appendf E v out
  | .insert z i => Str.insert E v z i
  | .insertN z i n => Str.insertN E v z i n
  | .insertf i out => Str.insertf E v i out
  | .remove i n => Str.remove E v i n
  | .setAt z i => Str.setAt E v z i
  | .setC c i => Str.setC E v c i
  | .setN z n => Str.setN E v z n
  | .clear => Str.clear v
  | .reserve n => Str.reserve E v n
  | .resize n => Str.resize E v n
  | .shrink => Str.shrink E v
  | .removeFirst z => do
      let r ← Str.removeFirst v z
      .ok r.1
  | .removeAll z => Str.removeAll (v.len + k) v z
  | .removeC c => Str.removeC v c
  | .replace sub rsub => Str.replace E (v.len + k) v sub rsub
  | .replaceFirst sub rsub => Str.replaceFirst E v sub rsub
  | .replaceC c r => Str.replaceC v c r
  | .toUpper => Str.toUppercase v
  | .toLower => Str.toLowercase v

/-- Perform a history of editing calls. -/
def runStr (E : Env) (k : Nat) (v : Arr) : List StrOp → Out Arr
  | [] => .ok v
  | op :: ops => do
      let v ← applyOp E k v op
      runStr E k v ops

/-- The outcome `res` of the call `op` on a string holding `t` is as specified. -/
def Sim (E : Env) (v : Arr) (t : Text) (op : StrOp) (res : Out Arr) : Prop :=
  (∃ v' t', res = .ok v' ∧ IsStr v' t' ∧ StrStep E ⟨t, v.cap⟩ op (.ok ⟨t', v'.cap⟩)) ∨
  (∃ w, res = .exit w ∧ StrStep E ⟨t, v.cap⟩ op (.exit w))

theorem isCText_cstr {z : Mem} (h : IsCText z) : CStr z (textAt z) := ⟨h.1, h.2⟩

theorem textAt_of {z : Mem} {zs : Text} (h : scanZ z = .ok zs) : textAt z = zs := by simp [textAt, h]

theorem store_ok_left {E : Env} {s : StrState} {t : Text} (h : t.length ≤ s.cap) : store E s t = .ok ⟨t, s.cap⟩ := by
  simp [store, h]

/-- Storing a text of `n` more characters. -/
theorem store_cases (E : Env) (v : Arr) (t t' : Text) :
    ((t'.length ≤ v.cap ∨ E.allocOk (t'.length + 1) = true) ∧
      store E ⟨t, v.cap⟩ t' = .ok ⟨t', max v.cap t'.length⟩) ∨
    (v.cap < t'.length ∧ E.allocOk (t'.length + 1) = false ∧ store E ⟨t, v.cap⟩ t' = .exit .alloc) := by
  by_cases h : t'.length ≤ v.cap
  · left
    refine ⟨Or.inl h, ?_⟩
    simp [store, h]
  · cases ha : E.allocOk (t'.length + 1) with
    | true =>
      left
      refine ⟨Or.inr rfl, ?_⟩
      have : max v.cap t'.length = t'.length := by omega
      simp [store, h, ha, this]
    | false => right; exact ⟨by omega, rfl, by simp [store, h, ha]⟩

theorem sim_appendN {E : Env} (hD : E.debug = true) {v : Arr} {t ys : Text} (h : IsStr v t) {z : Mem} (hy : 0 ∉ ys)
    (hz : Begins z ys) (hl : ys.length < 2 ^ 56) :
    (ys = [] ∧ Str.appendN E v z ys.length = .exit .dbgAssert) ∨
    (ys ≠ [] ∧ ((∃ v', Str.appendN E v z ys.length = .ok v' ∧ IsStr v' (t ++ ys) ∧
        store E ⟨t, v.cap⟩ (t ++ ys) = .ok ⟨t ++ ys, v'.cap⟩) ∨
      (Str.appendN E v z ys.length = .exit .alloc ∧ store E ⟨t, v.cap⟩ (t ++ ys) = .exit .alloc))) := by
  by_cases h0 : ys = []
  · left
    subst h0
    exact ⟨rfl, by simp [Str.appendN, dassert_false hD]⟩
  · right
    refine ⟨h0, ?_⟩
    have hp : 0 < ys.length := List.length_pos_iff.2 h0
    have e : (t ++ ys).length = t.length + ys.length := by simp
    rcases store_cases E v t (t ++ ys) with ⟨ha, hs⟩ | ⟨hc, ha, hs⟩
    · left
      rw [e] at ha
      obtain ⟨v', e1, s1, c1, -⟩ := appendN_ok h hy hz (by omega) (Or.inl hp) ha
      exact ⟨v', e1, s1, by rw [hs, c1, e]⟩
    · right
      rw [e] at ha hc
      exact ⟨appendN_fail h (by omega) hp hc ha, hs⟩

theorem sim_insert {E : Env} (hD : E.debug = true) {v : Arr} {t zs : Text} (h : IsStr v t) {z : Mem}
    (hz : CStr z zs) (i : Nat) :
    (t.length ≤ i ∧ Str.insert E v z i = .exit .dbgAssert) ∨
    (i < t.length ∧ ((∃ v', Str.insert E v z i = .ok v' ∧ IsStr v' (t.take i ++ zs ++ t.drop i) ∧
        store E ⟨t, v.cap⟩ (t.take i ++ zs ++ t.drop i) = .ok ⟨t.take i ++ zs ++ t.drop i, v'.cap⟩) ∨
      (Str.insert E v z i = .exit .alloc ∧ store E ⟨t, v.cap⟩ (t.take i ++ zs ++ t.drop i) = .exit .alloc))) := by
  have := hz.lim
  by_cases hi : i < t.length
  · right
    refine ⟨hi, ?_⟩
    have e : (t.take i ++ zs ++ t.drop i).length = t.length + zs.length := by simp; omega
    rcases store_cases E v t (t.take i ++ zs ++ t.drop i) with ⟨ha, hs⟩ | ⟨hc, ha, hs⟩
    · left
      rw [e] at ha
      obtain ⟨v', e1, s1, c1, -⟩ := insert_ok h hz.text (by omega) (by omega) (Or.inl hi) ha
      exact ⟨v', e1, s1, by rw [hs, c1, e]⟩
    · right
      rw [e] at ha hc
      exact ⟨insert_fail h hz.text (by omega) hi hc ha, hs⟩
  · left
    refine ⟨by omega, ?_⟩
    simp [Str.insert, h.len, hi, dassert_false hD]

/-- Printing `ys` and its terminator behind the text. -/
theorem str_print_end {v : Arr} {t ys : Text} (h : IsStr v t) (hy : 0 ∉ ys)
    (hc : t.length + ys.length ≤ v.cap) :
    ∃ m1 m2, writeN v.mem t.length (ys.map some ++ [some 0]) = .ok m1 ∧
      putc m1 (t.length + ys.length) 0 = .ok m2 ∧
      IsStr { v with mem := m2, len := t.length + ys.length } (t ++ ys) := by
  obtain ⟨rest, hm, hr⟩ := h.split
  have hlim := h.lim
  obtain ⟨old, rest', e, hl⟩ : ∃ (old rest' : Mem), some 0 :: rest = old ++ rest' ∧
      old.length = ys.length + 1 := by
    have hlen : ys.length < (some (0:UInt8) :: rest).length := by simp [hr]; omega
    refine ⟨(some 0 :: rest).take (ys.length + 1), (some 0 :: rest).drop (ys.length + 1), ?_, ?_⟩
    · rw [List.take_append_drop]
    · rw [List.length_take]; omega
  have hr' : ys.length + rest'.length = rest.length := by
    have := congrArg List.length e
    simp [hl] at this
    omega
  refine ⟨t.map some ++ (ys.map some ++ [some 0]) ++ rest', t.map some ++ ys.map some ++ some 0 :: rest', ?_, ?_, ?_⟩
  · rw [hm, e, ← List.append_assoc]
    exact writeN_mid _ _ _ _ (by simp) (by simp [hl])
  · rw [show t.map (some : UInt8 → Byte) ++ (ys.map some ++ [some 0]) ++ rest' =
      t.map some ++ ys.map some ++ some 0 :: rest' by simp]
    exact putc_mid _ _ _ _ (by simp)
  · refine IsStr.mk' (rest := rest') h.es h.view (by simp) ?_ (by simp) ?_ h.lim
    · simp only [List.mem_append, not_or]; exact ⟨h.nz, hy⟩
    · simp; omega

theorem appendf_eq {E : Env} (v : Arr) {out : Text} (hl : out.length < 2 ^ 56) {t : Text} (h : IsStr v t) (h0 : 0 ∉ out) :
    (∃ v', Str.appendf E v out = .ok v' ∧ IsStr v' (t ++ out) ∧
        store E ⟨t, v.cap⟩ (t ++ out) = .ok ⟨t ++ out, v'.cap⟩) ∨
      (Str.appendf E v out = .exit .alloc ∧ store E ⟨t, v.cap⟩ (t ++ out) = .exit .alloc) := by
  have e : (t ++ out).length = t.length + out.length := by simp
  rcases store_cases E v t (t ++ out) with ⟨ha, hs⟩ | ⟨hc, ha, hs⟩
  · left
    rw [e] at ha
    obtain ⟨g, hg, gs, gc, gsl⟩ := str_grow_ok (E := E) h (n := out.length) (by omega) ha
    obtain ⟨m1, m2, e1, e2, e3⟩ := str_print_end gs h0 (by omega)
    have hlim := gs.lim
    have hle := gs.le
    have w1 : wmul g.len g.elsize = t.length := by rw [gs.es, gs.len]; exact wmul_one (by omega)
    have w3 : wadd g.len out.length = t.length + out.length := by rw [gs.len]; exact wadd_eq (by omega)
    refine ⟨{ g with mem := m2, len := t.length + out.length }, ?_, e3, by rw [hs, e]; simp [gc]⟩
    simp only [Str.appendf, hg, bind_ok, w1, w3, e1, e2]
  · right
    rw [e] at ha hc
    exact ⟨by simp [Str.appendf, str_grow_fail h (by omega : out.length < 2 ^ 63) hc ha], hs⟩

theorem vfmtSet_text {E : Env} {v : Arr} {t out : Text} (h : IsStr v t) (h0 : 0 ∉ out) (hl1 : out.length + 1 < 2 ^ 31) :
    OkOr E (t.length + out.length + 2) (Str.vfmtSet E v out) fun v' => CStr v'.mem out := by
  have hl : out.length < 2 ^ 56 := by omega
  have hw : wadd out.length 1 = out.length + 1 := wadd_eq (by omega)
  unfold Str.vfmtSet
  rw [if_neg (by omega)]
  simp only [hw]
  have hg : OkOr E (t.length + out.length + 2) (Str.grow E v (out.length + 1)) fun g => IsStr g t ∧ t.length + (out.length + 1) ≤ g.cap := by
    by_cases hc : t.length + (out.length + 1) ≤ v.cap
    · obtain ⟨g, e1, s1, c1, -⟩ := str_grow_ok (E := E) h (n := out.length + 1) (by omega) (Or.inl hc)
      exact Or.inl ⟨g, e1, s1, by omega⟩
    · cases ha : E.allocOk (t.length + (out.length + 1) + 1) with
      | true =>
        obtain ⟨g, e1, s1, c1, -⟩ := str_grow_ok (E := E) h (n := out.length + 1) (by omega) (Or.inr ha)
        exact Or.inl ⟨g, e1, s1, by omega⟩
      | false => exact Or.inr ⟨str_grow_fail h (by omega) (by omega) ha, _, by omega, ha⟩
  refine hg.bind ?_
  rintro g ⟨gs, gc⟩
  have hsz := gs.size
  rw [writeN_ok (by simp [hsz]; omega), bind_ok, putc_ok (by simp [hsz]; omega), bind_ok]
  refine OkOr.ok ⟨?_, hl⟩
  refine scanZ_eq_ok.2 ⟨?_, h0⟩
  simp only [List.take_zero, List.nil_append, List.append_assoc, List.length_append, List.length_map,
    List.length_cons, List.length_nil, Nat.zero_add]
  rw [List.set_append_right _ _ (by simp)]
  simp

theorem sim_insertf {E : Env} (hD : E.debug = true) {v : Arr} {t out : Text} (h : IsStr v t) (h0 : 0 ∉ out)
    (hl : out.length + 1 < 2 ^ 31) (i : Nat) : Sim E v t (.insertf i out) (Str.insertf E v i out) := by
  unfold Str.insertf
  by_cases hc : out.length < tmpBufferSize - 1
  · rw [if_pos hc]
    have hb : CStr (out.map some ++ [some 0] ++ (List.replicate tmpBufferSize (some (0 : UInt8))).drop
        ((out.map (some : UInt8 → Byte) ++ [some 0]).length)) out :=
      ⟨scanZ_eq_ok.2 ⟨⟨_, by rw [List.append_assoc]; rfl⟩, h0⟩, by omega⟩
    have hw : 0 + (out.map (some : UInt8 → Byte) ++ [some 0]).length ≤ (List.replicate tmpBufferSize (some (0 : UInt8))).length := by
      rw [List.length_replicate, List.length_append, List.length_map, List.length_singleton]; omega
    rw [writeN_ok hw, bind_ok]
    simp only [List.take_zero, List.nil_append, Nat.zero_add]
    have hc' : out.length < 1023 := hc
    rcases sim_insert hD h hb i with ⟨hi, e⟩ | ⟨hi, ⟨v', e, s, st⟩ | ⟨e, st⟩⟩
    · right
      refine ⟨.dbgAssert, e, ?_⟩
      have : ¬ i < t.length := by omega
      simp [StrStep, this]
    · left
      exact ⟨v', _, e, s, by simp only [StrStep, hi, if_true, hc']; exact st.symm⟩
    · right
      exact ⟨_, e, by simp only [StrStep, hi, if_true, hc']; exact st.symm⟩
  · rw [if_neg hc]
    have hc' : ¬ out.length < 1023 := hc
    have hp : 0 < out.length := by simp only [tmpBufferSize] at hc; omega
    have hcr : OkOr E (2 * out.length + 56) (do
        let t ← Str.createLen E out.length
        Str.vfmtSet E t out) fun v' => CStr v'.mem out := by
      refine (createLen_okOr hp (by omega)).bind ?_
      rintro a ⟨ha, -, -⟩
      exact (vfmtSet_text ha h0 (by omega)).le (by simp; omega)
    have hassoc : (do
        let t ← Str.createLen E out.length
        let t ← Str.vfmtSet E t out
        Str.insert E v t.mem i) = ((do
        let t ← Str.createLen E out.length
        Str.vfmtSet E t out) >>= fun t => Str.insert E v t.mem i) := by
      rw [Out.bind_assoc]
    rw [hassoc]
    rcases hcr with ⟨a, ea, ca⟩ | ⟨ea, hn⟩
    · rw [ea, bind_ok]
      rcases sim_insert hD h ca i with ⟨hi, e⟩ | ⟨hi, ⟨v', e, s, st⟩ | ⟨e, st⟩⟩
      · right
        refine ⟨.dbgAssert, e, ?_⟩
        have : ¬ i < t.length := by omega
        simp [StrStep, this]
      · left
        refine ⟨v', _, e, s, ?_⟩
        simp only [StrStep, hi, if_true, hc', if_false]
        have hle := s.le
        refine Or.inl ⟨v'.cap, ?_, hle, rfl⟩
        unfold store at st
        split at st
        · simp only [ok.injEq, StrState.mk.injEq, true_and] at st; simp; omega
        · split at st
          · simp only [ok.injEq, StrState.mk.injEq, true_and] at st; simp at *; omega
          · simp at st
      · right
        refine ⟨_, e, ?_⟩
        simp only [StrStep, hi, if_true, hc', if_false]
        right
        refine ⟨rfl, ?_⟩
        unfold store at st
        split at st
        · simp at st
        · split at st
          · simp at st
          · rename_i h2
            exact ⟨(t.take i ++ out ++ t.drop i).length + 1, by simp; omega, by simpa using h2⟩
    · rw [ea, bind_exit]
      right
      refine ⟨_, rfl, ?_⟩
      by_cases hi : i < t.length
      · simp only [StrStep, hi, if_true, hc', if_false]; exact Or.inr ⟨rfl, hn.le (by simp; omega)⟩
      · simp only [StrStep, hi, if_false]; exact Or.inr ⟨by omega, by simp, hn⟩

theorem rewritten_of {E : Env} {v v' : Arr} {t t' : Text} (h : IsStr v' t') (hc : v.cap ≤ v'.cap) :
    Rewritten E ⟨t, v.cap⟩ t' (.ok ⟨t', v'.cap⟩) := Or.inl ⟨v'.cap, hc, h.le, rfl⟩

theorem toupper_eq (c : UInt8) : toupper c = upper c := by
  simp [toupper, upper]
theorem tolower_eq (c : UInt8) : tolower c = lower c := by
  simp [tolower, lower]

theorem mapIdx_const (f : UInt8 → UInt8) (t : Text) : t.mapIdx (fun _ x => f x) = t.map f := by
  apply List.ext_getElem <;> simp

theorem upper_ne_zero (c : UInt8) (h : c ≠ 0) : upper c ≠ 0 := by
  have := UInt8.toNat_lt c
  rw [Ne, ← UInt8.toNat_inj] at h ⊢
  unfold upper
  split
  · rename_i h'
    simp [UInt8.le_iff_toNat_le] at h'
    rw [UInt8.toNat_sub_of_le _ _ (by simp [UInt8.le_iff_toNat_le]; omega)]
    simp
    omega
  · exact h
theorem lower_ne_zero (c : UInt8) (h : c ≠ 0) : lower c ≠ 0 := by
  have := UInt8.toNat_lt c
  rw [Ne, ← UInt8.toNat_inj] at h ⊢
  unfold lower
  split
  · rename_i h'
    simp [UInt8.le_iff_toNat_le] at h' ⊢
    omega
  · exact h

/-- Every legal editing call behaves as specified. -/
theorem sim_step {E : Env} (hD : E.debug = true) {k : Nat} (hk : 1 ≤ k) {v : Arr} {t : Text} (h : IsStr v t)
    (op : StrOp) (hL : Legal t op) : Sim E v t op (applyOp E k v op) := by
  have hle := h.le
  have hlim := h.lim
  cases op with
  | append z =>
    have hz := isCText_cstr hL
    simp only [applyOp, append_eq hz]
    rcases sim_appendN hD h hz.nz hz.begins hz.lim with ⟨h0, e⟩ | ⟨h0, ⟨v', e, s, st⟩ | ⟨e, st⟩⟩
    · right; exact ⟨_, e, by simp [StrStep, h0]⟩
    · left; exact ⟨v', _, e, s, by simp only [StrStep, h0, if_false]; exact st.symm⟩
    · right; exact ⟨_, e, by simp only [StrStep, h0, if_false]; exact st.symm⟩
  | appendN z n =>
    obtain ⟨hz, hn⟩ := hL
    have hz := isCText_cstr hz
    have hl : ((textAt z).take n).length = n := by simp; omega
    have := hz.lim
    have key := sim_appendN (ys := (textAt z).take n) hD h (fun h' => hz.nz (List.mem_of_mem_take h')) (hz.begins.take n) (by omega)
    rw [hl] at key
    simp only [applyOp]
    rcases key with ⟨h0, e⟩ | ⟨h0, ⟨v', e, s, st⟩ | ⟨e, st⟩⟩
    · have : n = 0 := by rw [← hl, h0]; rfl
      right; exact ⟨_, e, by simp [StrStep, this]⟩
    · have : n ≠ 0 := by rintro rfl; simp at h0
      left; exact ⟨v', _, e, s, by simp only [StrStep, this, if_false]; exact st.symm⟩
    · have : n ≠ 0 := by rintro rfl; simp at h0
      right; exact ⟨_, e, by simp only [StrStep, this, if_false]; exact st.symm⟩
  | appendf out =>
    obtain ⟨h0, hl⟩ := hL
    simp only [applyOp]
    rcases appendf_eq (E := E) v (by omega : out.length < 2 ^ 56) h h0 with ⟨v', e, s, st⟩ | ⟨e, st⟩
    · left; exact ⟨v', _, e, s, by simp only [StrStep]; exact st.symm⟩
    · right; exact ⟨_, e, by simp only [StrStep]; exact st.symm⟩
  | insert z i =>
    have hz := isCText_cstr hL
    simp only [applyOp]
    rcases sim_insert hD h hz i with ⟨hi, e⟩ | ⟨hi, ⟨v', e, s, st⟩ | ⟨e, st⟩⟩
    · have : ¬ i < t.length := by omega
      right; exact ⟨_, e, by simp [StrStep, this]⟩
    · left; exact ⟨v', _, e, s, by simp only [StrStep, hi, if_true]; exact st.symm⟩
    · right; exact ⟨_, e, by simp only [StrStep, hi, if_true]; exact st.symm⟩
  | insertN z i n =>
    obtain ⟨hz, hn, hi⟩ := hL
    have hz := isCText_cstr hz
    have := hz.lim
    have hl : ((textAt z).take n).length = n := by simp; omega
    have hnz : 0 ∉ (textAt z).take n := fun h' => hz.nz (List.mem_of_mem_take h')
    simp only [applyOp]
    by_cases h0 : n = 0
    · right
      exact ⟨.dbgAssert, by simp [Str.insertN, h0, dassert_false hD], by simp [StrStep, h0]⟩
    · have e : (t.take i ++ (textAt z).take n ++ t.drop i).length = t.length + n := by simp; omega
      rcases store_cases E v t (t.take i ++ (textAt z).take n ++ t.drop i) with ⟨ha, hs⟩ | ⟨hc, ha, hs⟩
      · left
        rw [e, ← hl] at ha
        obtain ⟨v', e1, s1, c1, -⟩ := insertN_ok (E := E) h hnz (hz.begins.take n) (by omega) (Or.inl (by omega)) hi ha
        rw [hl] at e1 c1
        refine ⟨v', _, e1, s1, ?_⟩
        simp only [StrStep, h0, if_false]
        rw [hs, c1, e]
      · right
        rw [e] at ha hc
        refine ⟨_, insertN_fail h (by omega) (by omega) hc ha, ?_⟩
        simp only [StrStep, h0, if_false]
        rw [hs]
  | insertf i out => exact sim_insertf hD h hL.1 hL.2 i
  | remove i n =>
    simp only [applyOp]
    by_cases h0 : 0 < n
    · by_cases hi : i < t.length
      · obtain ⟨v', e, s, c, -⟩ := remove_ok (E := E) h h0 hi
        left; exact ⟨v', _, e, s, by simp [StrStep, h0, hi, c]⟩
      · right; exact ⟨.dbgAssert, by simp [Str.remove, h0, h.len, hi, dassert_false hD], by simp [StrStep, hi]⟩
    · right; exact ⟨.dbgAssert, by simp [Str.remove, h0, dassert_false hD], by simp [StrStep, h0]⟩
  | setAt z i =>
    have hz := isCText_cstr hL
    simp only [applyOp]
    by_cases hi : i < t.length
    · have hi' : ¬ t.length ≤ i := by omega
      have w : wsub v.len i = t.length - i := by rw [h.len]; exact wsub_eq (by omega) (by omega)
      have hd : dassert E (decide (i < v.len)) = .ok () := by simp [h.len, hi]
      by_cases hl : (textAt z).length ≤ t.length - i
      · have hl' : ¬ t.length - i < (textAt z).length := by omega
        obtain ⟨v1, e1, s1, c1, -⟩ := remove_ok (E := E) h (i := i) (n := t.length - i) (by omega) hi
        have et : t.take i ++ t.drop (i + (t.length - i)) = t.take i := by
          rw [List.drop_of_length_le (by omega)]; simp
        rw [et] at s1
        have hlen : (t.take i).length = i := by simp; omega
        have hset : Str.setAt E v z i = Str.appendN E v1 z (textAt z).length := by
          simp only [Str.setAt, hd, bind_ok, strlen_ok hz.text, w, hl, decide_true, enforce_true, e1]
        rw [hset]
        rcases sim_appendN hD s1 hz.nz hz.begins hz.lim with ⟨h0, e⟩ | ⟨h0, ⟨v', e, s, st⟩ | ⟨e, st⟩⟩
        · right; exact ⟨_, e, by simp [StrStep, hi', h0]⟩
        · left
          have hst := store_ok_left (E := E) (s := ⟨t.take i, v1.cap⟩) (t := t.take i ++ textAt z)
            (by simp only [List.length_append, hlen]; omega)
          rw [hst] at st
          simp only [ok.injEq, StrState.mk.injEq, true_and] at st
          exact ⟨v', _, e, s, by simp only [StrStep, hi', hl', h0, if_false]; rw [← st, c1]⟩
        · have hst := store_ok_left (E := E) (s := ⟨t.take i, v1.cap⟩) (t := t.take i ++ textAt z)
            (by simp only [List.length_append, hlen]; omega)
          rw [hst] at st
          simp at st
      · right
        have hl' : t.length - i < (textAt z).length := by omega
        refine ⟨.enforce, ?_, by simp only [StrStep, hi', hl', if_true, if_false]⟩
        simp only [Str.setAt, hd, bind_ok, strlen_ok hz.text, w, hl, decide_false, enforce_false, bind_exit]
    · have hi' : t.length ≤ i := by omega
      right
      exact ⟨.dbgAssert, by simp [Str.setAt, h.len, hi, dassert_false hD], by simp [StrStep, hi']⟩
  | setC c i =>
    simp only [applyOp]
    by_cases hi : i < t.length
    · obtain ⟨v', e, s, c', -⟩ := setC_ok (E := E) h hi hL
      left; exact ⟨v', _, e, s, by simp [StrStep, hi, c']⟩
    · right
      exact ⟨.dbgAssert, by simp [Str.setC, h.len, hi, dassert_false hD], by simp [StrStep, hi]⟩
  | setN z n =>
    obtain ⟨hz, hn⟩ := hL
    have hz := isCText_cstr hz
    have hl : ((textAt z).take n).length = n := by simp; omega
    simp only [applyOp]
    by_cases h0 : n = 0
    · right; exact ⟨.dbgAssert, by simp [Str.setN, h0, dassert_false hD], by simp [StrStep, h0]⟩
    · by_cases hc : t.length < n
      · right; exact ⟨_, setN_reject h hc, by simp [StrStep, h0, hc]⟩
      · left
        obtain ⟨v', e, s, c, -⟩ := setN_ok (E := E) (ys := (textAt z).take n) h (fun h' => hz.nz (List.mem_of_mem_take h'))
          (hz.begins.take n) (Or.inl (by omega)) (by omega)
        rw [hl] at e
        exact ⟨v', _, e, s, by simp [StrStep, h0, hc, c]⟩
  | clear =>
    obtain ⟨v', e, s, c, -⟩ := clear_ok h
    left; exact ⟨v', _, e, s, by simp [StrStep, c]⟩
  | reserve n =>
    have hL : n < 2 ^ 63 := hL
    simp only [applyOp]
    by_cases h0 : n = 0
    · right; exact ⟨.dbgAssert, by simp [Str.reserve, h0, dassert_false hD], by simp [StrStep, h0]⟩
    · cases ha : E.allocOk (v.cap + n + 1) with
      | true =>
        obtain ⟨v', e, s, c, -⟩ := str_reserve_ok (E := E) h (by omega : 0 < n) hL ha
        left; exact ⟨v', _, e, s, by simp [StrStep, h0, ha, c]⟩
      | false =>
        right; exact ⟨_, str_reserve_fail h (by omega) hL ha, by simp [StrStep, h0, ha]⟩
  | resize n =>
    have hL : n < 2 ^ 63 := hL
    simp only [applyOp]
    by_cases h0 : n = 0
    · right; exact ⟨.dbgAssert, by simp [Str.resize, h0, dassert_false hD], by simp [StrStep, h0]⟩
    · cases ha : E.allocOk (n + 1) with
      | true =>
        obtain ⟨v', e, s, c, -⟩ := resize_ok (E := E) h hL (Or.inl (by omega)) ha
        left; exact ⟨v', _, e, s, by simp [StrStep, h0, ha, c]⟩
      | false =>
        right; exact ⟨_, resize_fail h hL (by omega) ha, by simp [StrStep, h0, ha]⟩
  | shrink =>
    simp only [applyOp]
    by_cases hc : t.length = v.cap
    · left; exact ⟨v, t, shrink_same h hc, h, by simp [StrStep, hc]⟩
    · cases ha : E.allocOk (t.length + 1) with
      | true =>
        obtain ⟨v', e, s, c, -⟩ := shrink_ok (E := E) h hc ha
        left; exact ⟨v', _, e, s, by simp [StrStep, hc, ha, c]⟩
      | false => right; exact ⟨_, shrink_fail h hc ha, by simp [StrStep, hc, ha]⟩
  | removeFirst z =>
    have hz := isCText_cstr hL
    simp only [applyOp]
    left
    rcases exists_first_or_none t (textAt z) with ⟨i, hi, -⟩ | ⟨hn, -⟩
    · obtain ⟨v', e, s, c, -⟩ := removeFirst_some h hz hi
      exact ⟨v', _, by simp [e], s, Or.inl ⟨i, hi, by simp [c]⟩⟩
    · exact ⟨v, t, by simp [removeFirst_none h hz hn], h, Or.inr ⟨hn, rfl⟩⟩
  | removeAll z =>
    obtain ⟨hz, h0⟩ := hL
    have hz := isCText_cstr hz
    simp only [applyOp]
    obtain ⟨v', t', e, s, c, -, d, n⟩ := removeAll_ok hz h0 (v.len + k) h (by rw [h.len]; omega)
    left; exact ⟨v', t', e, s, t', d, n, by simp [c]⟩
  | removeC c =>
    have hz := isCText_cstr hL
    obtain ⟨v', e, s, c', -⟩ := removeC_ok h hz
    left; exact ⟨v', _, e, s, by simp [StrStep, c']⟩
  | replace sub rsub =>
    obtain ⟨hs, hr⟩ := hL
    have hs := isCText_cstr hs
    have hr := isCText_cstr hr
    simp only [applyOp]
    by_cases h0 : textAt sub = [] ∨ textAt rsub = []
    · left
      have h0' : (textAt sub).length = 0 ∨ (textAt rsub).length = 0 := by
        simpa [List.length_eq_zero_iff] using h0
      exact ⟨v, t, by simp only [Str.replace, strlen_ok hs.text, strlen_ok hr.text, bind_ok, if_pos h0'], h, by simp [StrStep, h0]⟩
    · have h1 := not_or.1 h0
      rcases replace_okOr (E := E) h hs hr h1.1 h1.2 (fuel := v.len + k) (by rw [h.len]; omega) with ⟨v', e, s, c, -⟩ | ⟨e, hn⟩
      · left; exact ⟨v', _, e, s, by simp only [StrStep, h0, if_false]; exact rewritten_of s c⟩
      · right; exact ⟨_, e, by simp only [StrStep, h0, if_false]; exact Or.inr ⟨rfl, hn.le (by simp; omega)⟩⟩
  | replaceFirst sub rsub =>
    obtain ⟨hs, hr⟩ := hL
    have hs := isCText_cstr hs
    have hr := isCText_cstr hr
    simp only [applyOp]
    by_cases h0 : textAt sub = [] ∨ textAt rsub = []
    · left
      have h0' : (textAt sub).length = 0 ∨ (textAt rsub).length = 0 := by
        simpa [List.length_eq_zero_iff] using h0
      exact ⟨v, t, by simp only [Str.replaceFirst, strlen_ok hs.text, strlen_ok hr.text, bind_ok, if_pos h0'], h, by simp [StrStep, h0]⟩
    · have h0' : ¬ ((textAt sub).length = 0 ∨ (textAt rsub).length = 0) := by
        simpa [List.length_eq_zero_iff] using h0
      have h1 := not_or.1 h0
      by_cases hlong : t.length < (textAt sub).length
      · right
        exact ⟨.enforce, by simp only [Str.replaceFirst, strlen_ok hs.text, strlen_ok hr.text, bind_ok, if_neg h0', find_long h hs hlong, bind_exit], by simp only [StrStep, h0, if_false, hlong, if_true]⟩
      · have hf := find_ok h hs (by omega)
        rcases exists_first_or_none t (textAt sub) with ⟨i, hi, hfs⟩ | ⟨hn, hfs⟩
        · have e : Str.replaceFirst E v sub rsub = Str.replaceAt E v i (textAt sub).length (textAt rsub).length rsub := by
            simp only [Str.replaceFirst, strlen_ok hs.text, strlen_ok hr.text, bind_ok, if_neg h0', hf, hfs]
          rw [e]
          rcases replaceAt_okOr (E := E) h hr h1.2 (List.length_pos_iff.2 h1.1) hi.1.le with ⟨v', e, s, c, -⟩ | ⟨e, hn⟩
          · left
            refine ⟨v', _, e, s, ?_⟩
            simp only [StrStep, h0, if_false, hlong]
            exact Or.inl ⟨i, hi, rewritten_of s (by omega)⟩
          · right
            refine ⟨_, e, ?_⟩
            simp only [StrStep, h0, if_false, hlong]
            exact Or.inl ⟨i, hi, Or.inr ⟨rfl, hn.le (by rw [splice_length hi.1.le]; simp; omega)⟩⟩
        · left
          refine ⟨v, t, ?_, h, ?_⟩
          · simp only [Str.replaceFirst, strlen_ok hs.text, strlen_ok hr.text, bind_ok, if_neg h0', hf, hfs]
          · simp only [StrStep, h0, if_false, hlong]; exact Or.inr ⟨hn, by simp⟩
  | replaceC c r =>
    obtain ⟨hc, hr⟩ := hL
    have hc := isCText_cstr hc
    have hr := isCText_cstr hr
    simp only [applyOp]
    by_cases hl : (textAt r).length ≤ (textAt c).length
    · have hl' : ¬ (textAt c).length < (textAt r).length := by omega
      obtain ⟨v', t', e, s, c', -, a, b⟩ := replaceC_ok h hc hr hl
      left
      refine ⟨v', t', e, s, ?_⟩
      by_cases h0 : textAt r = []
      · simp [StrStep, h0, a h0, c']
      · simp only [StrStep, hl', if_false, h0]
        exact ⟨t', b h0, by rw [c']⟩
    · have hl' : (textAt c).length < (textAt r).length := by omega
      right
      exact ⟨.enforce, by simp [Str.replaceC, hc.text, hr.text, hl], by simp [StrStep, hl']⟩
  | toUpper =>
    obtain ⟨v', e, s, c, -⟩ := apply_ok (f := fun x _ => toupper x) h (fun x _ hx => by rw [toupper_eq]; exact upper_ne_zero x hx)
    left
    refine ⟨v', _, e, s, ?_⟩
    simp only [StrStep, c]
    rw [mapIdx_const]
    simp [toupper_eq]
  | toLower =>
    obtain ⟨v', e, s, c, -⟩ := apply_ok (f := fun x _ => tolower x) h (fun x _ hx => by rw [tolower_eq]; exact lower_ne_zero x hx)
    left
    refine ⟨v', _, e, s, ?_⟩
    simp only [StrStep, c]
    rw [mapIdx_const]
    simp [tolower_eq]

end Vita
