import Verif.Props.StrEdit
/-!
# C24: `vt_str_replace_last` with overlapping occurrences
-/

namespace Vita
open Spec Out

/-- **C24** (exact) `replace_last` rewrites the last of the occurrences found from the left without overlaps.  If the last occurrence of all is another one, as in
"xaaay" with "aa", that one is not what is rewritten, for every text: all from the end of the occurrence that is rewritten is kept, and it is further left. -/
theorem C24_replace_last_overlap {E : Env} {v : Arr} {t ss rs : Text} (h : IsStr v t) {sub rsub : Mem} (hs : CStr sub ss)
    (hr : CStr rsub rs) (hs0 : ss ≠ []) (hr0 : rs ≠ []) {k l m : Nat} (hk : t.length < k)
    (hl : (positions t ss).getLast? = some l) (hm : IsLast t ss m) (hlm : l ≠ m) :
    OkOr E (t.length + rs.length + 1) (Str.replaceLast E k v sub rsub) fun v' =>
      IsStr v' (t.take l ++ rs ++ t.drop (l + ss.length)) ∧ l < m ∧ m < l + ss.length := by
  obtain ⟨h1, h2⟩ := positions_last hs0 t.length t l (Nat.le_refl _) hl
  have hlt : l < m := by
    rcases Nat.lt_trichotomy l m with hc | hc | hc
    · exact hc
    · exact absurd hc hlm
    · exact absurd h1 (hm.2 l hc)
  have hov : m < l + ss.length := by
    by_contra hc
    exact h2 m (by omega) hm.1
  exact (C24_replace_last_actual h hs hr hs0 hr0 hk hl).mono fun _ g => ⟨g, hlt, hov⟩

example : (positions [120, 97, 97, 97, 121] [97, 97]).getLast? = some 1 ∧
    IsLast [120, 97, 97, 97, 121] [97, 97] 2 ∧
    (Str.replaceLast exE 9 (strObj [120, 97, 97, 97, 121] 0) (zstr [97, 97]) (zstr [98])).mapOk Str.z =
      .ok (.ok [120, 98, 97, 121]) := by
  refine ⟨by decide +kernel, ⟨⟨[120, 97], [121], rfl, rfl⟩, ?_⟩, by decide +kernel⟩
  rintro j hj ⟨a, b, e, rfl⟩
  have := congrArg List.length e
  simp at this
  rcases a with _ | ⟨a1, _ | ⟨a2, _ | ⟨a3, _ | ⟨a4, a⟩⟩⟩⟩ <;> simp at e hj this ⊢ <;> omega

end Vita
