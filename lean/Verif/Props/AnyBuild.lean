import Verif.Props.Release
import Verif.Props.StrFormat
import Verif.Props.AliasFormat
import Verif.Props.Capacity
/-!
# Release builds: calls with right arguments

Some theorems on single calls (C16, C36, C116, C118) and C97 are stated for debug builds.  No debug check fails in the calls they are about, so they hold in
release builds as well (C82).
-/

namespace Vita
open Out Spec

seal wadd wsub wmul

/-- What a call returns in debug builds it returns in all builds. -/
theorem OkOr.anyBuild {f : Env → Out α} {B : Nat} {P : α → Prop} (ha : ∀ E, Agree (f E) (f E.release))
    (h : ∀ E, E.debug = true → OkOr E B (f E) P) (E : Env) : OkOr E B (f E) P := by
  cases hD : E.debug with
  | true => exact h E hD
  | false =>
    have a := ha E.dbg
    rw [Env.dbg_release hD] at a
    rcases h E.dbg rfl with ⟨x, e, p⟩ | ⟨e, n⟩
    · exact Or.inl ⟨x, a.ok_eq e, p⟩
    · refine Or.inr ⟨?_, n⟩
      rw [e] at a
      rcases a with a | a | a
      · cases a
      · cases a
      · exact a.symm

/-- **C16** in all builds: overwriting the tail. -/
theorem C16_set_at_any_build (E : Env) {v : Arr} {t zs : Text} (h : IsStr v t) {z : Mem} (hz : CStr z zs) {i : Nat}
    (h0 : zs ≠ []) (hi : i + zs.length ≤ t.length) :
    ∃ v', Str.setAt E v z i = .ok v' ∧ IsStr v' (t.take i ++ zs) ∧ v'.cap = v.cap := by
  cases hD : E.debug with
  | true => exact C16_set_at hD h hz h0 hi
  | false =>
    obtain ⟨v', e, s, c⟩ := C16_set_at (E := E.dbg) rfl h hz h0 hi
    have a := Str.setAt_agree E.dbg v z i
    rw [Env.dbg_release hD] at a
    exact ⟨v', a.ok_eq e, s, c⟩

/-- **C36** in all builds: `vt_str_insertf`.  Missing: a text of exactly `INT_MAX` characters, see `C36_insertf_longest`. -/
theorem C36_insertf_any_build_partial (E : Env) {v : Arr} {t out : Text} (h : IsStr v t) (h0 : 0 ∉ out)
    (hl : out.length + 1 < 2 ^ 31) {i : Nat} (hi : i < t.length) :
    OkOr E (4 * t.length + 2 * out.length + 56) (Str.insertf E v i out) fun v' => IsStr v' (t.take i ++ out ++ t.drop i) :=
  OkOr.anyBuild (fun E => Str.insertf_agree E v i out) (fun _ hD => C36_insertf_partial hD h h0 hl hi) E

/-- **C36** in all builds: a formatted text with a NUL is inserted up to the NUL. -/
theorem C36_insertf_nul_any_build (E : Env) {v : Arr} {t out : Text} (h : IsStr v t)
    (hl : out.length + 1 < 2 ^ 31) {i : Nat} (hi : i < t.length) :
    OkOr E (4 * t.length + 2 * out.length + 56) (Str.insertf E v i out)
      fun v' => IsStr v' (t.take i ++ upToNul out ++ t.drop i) :=
  OkOr.anyBuild (fun E => Str.insertf_agree E v i out) (fun _ hD => C36_insertf_nul hD h hl hi) E

/-- **C116** in all builds: `vt_str_insertf` reports success, and the text is in place (again without texts of `INT_MAX` characters). -/
theorem C116_insert_success_any_build_partial (E : Env) {v : Arr} {t out : Text} (h : IsStr v t) (h0 : 0 ∉ out)
    (hl : out.length + 1 < 2 ^ 31) {i : Nat} (hi : i < t.length) :
    OkOr E (4 * t.length + 2 * out.length + 56) (Str.insertfStatus E v i (some out))
      fun r => r.2 = true ∧ IsStr r.1 (t.take i ++ out ++ t.drop i) :=
  OkOr.anyBuild (fun E => Str.insertfStatus_agree E v i (some out)) (fun _ hD => C116_insert_success_partial hD h h0 hl hi) E

/-- **C118** in all builds: parts of the string's own text in `vt_str_insertf`. -/
theorem C118_insertf_any_build (E : Env) {v : Arr} {t : Text} (h : IsStr v t) {ps : List Str.Piece} (hp : InText t ps)
    (h0 : ∀ x, .lit x ∈ ps → 0 ∉ x) (hl : (formatted t ps).length + 1 < 2 ^ 31) {i : Nat} (hi : i < t.length) :
    OkOr E (4 * t.length + 2 * (formatted t ps).length + 56) (Str.insertfOwn E v i ps)
      fun v' => IsStr v' (t.take i ++ formatted t ps ++ t.drop i) :=
  OkOr.anyBuild (fun E => Str.insertfOwn_agree E v i ps) (fun _ hD => C118_insertf hD h hp h0 hl hi) E

/-- **C97** in release builds, for histories in which every argument is right (no check of a debug build fails): both strings end with the same text, or
both are stopped by the same check that release builds have too, or one of the two is refused memory. -/
theorem C97_capacity_invisible_release {E : Env} (hR : E.debug = false) {k : Nat} (hk : 1 ≤ k) {ops ops' : List StrOp}
    (hw : WithRoom ops ops') {v w : Arr} {t : Text} (hv : IsStr v t) (hw' : IsStr w t)
    (lv : LegalRun E ⟨t, v.cap⟩ ops) (lw : LegalRun E ⟨t, w.cap⟩ ops')
    (hn : ∀ x ∈ [Why.dbgAssert, .cAssert], runStr E.dbg k v ops ≠ .exit x ∧ runStr E.dbg k w ops' ≠ .exit x) :
    (∃ v' w' u, runStr E k v ops = .ok v' ∧ runStr E k w ops' = .ok w' ∧ IsStr v' u ∧ IsStr w' u) ∨
    (∃ r, runStr E k v ops = .exit r ∧ runStr E k w ops' = .exit r) ∨
    runStr E k v ops = .exit .alloc ∨ runStr E k w ops' = .exit .alloc := by
  have h := C97_capacity_invisible (E := E.dbg) rfl hk hw hv hw' (legalRun_env (E := E) (F := E.dbg) rfl lv)
    (legalRun_env (E := E) (F := E.dbg) rfl lw)
  have a := runStr_agree E.dbg k ops v
  have b := runStr_agree E.dbg k ops' w
  rw [Env.dbg_release hR] at a b
  have a : runStr E.dbg k v ops = runStr E k v ops := by
    rcases a with a | a | a
    · exact absurd a (hn _ (by simp)).1
    · exact absurd a (hn _ (by simp)).1
    · exact a
  have b : runStr E.dbg k w ops' = runStr E k w ops' := by
    rcases b with b | b | b
    · exact absurd b (hn _ (by simp)).2
    · exact absurd b (hn _ (by simp)).2
    · exact b
  rwa [a, b] at h

-- Release builds: the calls on small strings, and a history on two strings of different capacity.
example : (Str.insertf exR (strObj [97, 100] 0) 1 [98, 99]).mapOk Str.z = .ok (.ok [97, 98, 99, 100]) ∧
    (Str.setAt exR (strObj [97, 98, 99] 0) (zstr [120]) 1).mapOk Str.z = .ok (.ok [97, 120]) ∧
    (Str.insertfOwn exR (strObj [97, 98] 0) 1 [.own 0 none, .lit [45]]).mapOk Str.z = .ok (.ok [97, 97, 98, 45, 98]) := by
  refine ⟨?_, ?_, ?_⟩ <;> decide +kernel
example : ∀ x ∈ [Why.dbgAssert, .cAssert],
    runStr exR.dbg 9 (strObj [97] 0) [.append (zstr [98, 99])] ≠ .exit x ∧
    runStr exR.dbg 9 (strObj [97] 4) [.reserve 3, .append (zstr [98, 99])] ≠ .exit x := by decide +kernel

end Vita
