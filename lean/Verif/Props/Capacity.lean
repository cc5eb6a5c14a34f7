import Verif.Props.StrEdit

/-!
C97: the capacity of a string never shows in its text.  Two strings that show the same text behave
alike under the same history of editing calls, whatever their capacities, and calls of
`vt_str_reserve` and `vt_str_shrink` may be put anywhere into a history without any effect on the
text.  The one thing that depends on the capacity is whether memory has to be requested, and so
whether a request is refused.
-/

namespace Vita
open Out Spec

/-- `ops'` is `ops` with calls of `reserve` (of a non-zero amount) and `shrink` put in. -/
inductive WithRoom : List StrOp → List StrOp → Prop
  | nil : WithRoom [] []
  | cons {op : StrOp} {ops ops' : List StrOp} : WithRoom ops ops' → WithRoom (op :: ops) (op :: ops')
  | reserve {n : Nat} {ops ops' : List StrOp} : 0 < n → WithRoom ops ops' → WithRoom ops (.reserve n :: ops')
  | shrink {ops ops' : List StrOp} : WithRoom ops ops' → WithRoom ops (.shrink :: ops')

theorem WithRoom.refl : ∀ ops, WithRoom ops ops
  | [] => .nil
  | _ :: ops => .cons (WithRoom.refl ops)

/-- Two outcomes of the same calls, one of which may have been refused memory. -/
def SameText (o o' : Out StrState) : Prop :=
  o = .exit .alloc ∨ o' = .exit .alloc ∨
  (∃ s s', o = .ok s ∧ o' = .ok s' ∧ s.text = s'.text) ∨ (∃ w, o = .exit w ∧ o' = .exit w)

theorem SameText.of_ok {t : Text} {c c' : Nat} : SameText (.ok ⟨t, c⟩) (.ok ⟨t, c'⟩) :=
  Or.inr (Or.inr (Or.inl ⟨_, _, rfl, rfl, rfl⟩))

theorem SameText.of_exit {w : Why} : SameText (.exit w) (.exit w) := Or.inr (Or.inr (Or.inr ⟨w, rfl, rfl⟩))

theorem sameText_store {E : Env} {t u : Text} {c c' : Nat} : SameText (store E ⟨t, c⟩ u) (store E ⟨t, c'⟩ u) := by
  unfold store
  split <;> split <;> (try split) <;>
    first
      | exact SameText.of_ok
      | exact Or.inl rfl
      | exact Or.inr (Or.inl rfl)

theorem sameText_rewritten {E : Env} {t u : Text} {c c' : Nat} {o o' : Out StrState}
    (h : Rewritten E ⟨t, c⟩ u o) (h' : Rewritten E ⟨t, c'⟩ u o') : SameText o o' := by
  rcases h with ⟨_, -, -, rfl⟩ | ⟨rfl, -⟩
  · rcases h' with ⟨_, -, -, rfl⟩ | ⟨rfl, -⟩
    · exact SameText.of_ok
    · exact Or.inr (Or.inl rfl)
  · exact Or.inl rfl

theorem translated_unique {c r : Text} : ∀ {t u u' : Text}, List.Forall₂ (IsTranslated c r) t u →
    List.Forall₂ (IsTranslated c r) t u' → u = u'
  | [], _, _, .nil, .nil => rfl
  | _ :: _, _, _, .cons a h, .cons a' h' => by
    rw [C25_translation_deterministic a a', translated_unique h h']

/-- The specified outcome of one call depends on the text only. -/
theorem sameText_step {E : Env} {t : Text} {c c' : Nat} {op : StrOp} {o o' : Out StrState}
    (h : StrStep E ⟨t, c⟩ op o) (h' : StrStep E ⟨t, c'⟩ op o') : SameText o o' := by
  cases op with
  | append z =>
    simp only [StrStep] at h h'
    split at h <;> rename_i hc <;> simp only [hc, if_true, if_false] at h' <;> subst h h'
    · exact SameText.of_exit
    · exact sameText_store
  | appendN z n =>
    simp only [StrStep] at h h'
    split at h <;> rename_i hc <;> simp only [hc, if_true, if_false] at h' <;> subst h h'
    · exact SameText.of_exit
    · exact sameText_store
  | appendf out => simp only [StrStep] at h h'; subst h h'; exact sameText_store
  | insert z i =>
    simp only [StrStep] at h h'
    split at h <;> rename_i hc <;> simp only [hc, if_true, if_false] at h' <;> subst h h'
    · exact sameText_store
    · exact SameText.of_exit
  | insertN z i n =>
    simp only [StrStep] at h h'
    split at h <;> rename_i hc <;> simp only [hc, if_true, if_false] at h' <;> subst h h'
    · exact SameText.of_exit
    · exact sameText_store
  | insertf i out =>
    simp only [StrStep] at h h'
    split at h
    · rename_i hc
      rw [if_pos hc] at h'
      split at h
      · rename_i hd
        rw [if_pos hd] at h'
        subst h h'
        exact sameText_store
      · rename_i hd
        rw [if_neg hd] at h'
        exact sameText_rewritten h h'
    · rename_i hc
      rw [if_neg hc] at h'
      rcases h with rfl | ⟨-, rfl, -⟩
      · rcases h' with rfl | ⟨-, rfl, -⟩
        · exact SameText.of_exit
        · exact Or.inr (Or.inl rfl)
      · exact Or.inl rfl
  | remove i n =>
    simp only [StrStep] at h h'
    split at h
    · rename_i hc; rw [if_pos hc] at h'; subst h h'; exact SameText.of_ok
    · rename_i hc; rw [if_neg hc] at h'; subst h h'; exact SameText.of_exit
  | setAt z i =>
    simp only [StrStep] at h h'
    split at h
    · rename_i hc; rw [if_pos hc] at h'; subst h h'; exact SameText.of_exit
    · rename_i hc; rw [if_neg hc] at h'
      split at h
      · rename_i hc; rw [if_pos hc] at h'; subst h h'; exact SameText.of_exit
      · rename_i hc; rw [if_neg hc] at h'
        split at h
        · rename_i hc; rw [if_pos hc] at h'; subst h h'; exact SameText.of_exit
        · rename_i hc; rw [if_neg hc] at h'; subst h h'; exact SameText.of_ok
  | setC x i =>
    simp only [StrStep] at h h'
    split at h
    · rename_i hc; rw [if_pos hc] at h'; subst h h'; exact SameText.of_ok
    · rename_i hc; rw [if_neg hc] at h'; subst h h'; exact SameText.of_exit
  | setN z n =>
    simp only [StrStep] at h h'
    split at h
    · rename_i hc; rw [if_pos hc] at h'; subst h h'; exact SameText.of_exit
    · rename_i hc; rw [if_neg hc] at h'
      split at h
      · rename_i hc; rw [if_pos hc] at h'; subst h h'; exact SameText.of_exit
      · rename_i hc; rw [if_neg hc] at h'; subst h h'; exact SameText.of_ok
  | clear => simp only [StrStep] at h h'; subst h h'; exact SameText.of_ok
  | reserve n =>
    simp only [StrStep] at h h'
    split at h
    · rename_i hc; rw [if_pos hc] at h'; subst h h'; exact SameText.of_exit
    · rename_i hc; rw [if_neg hc] at h'
      split at h
      · split at h'
        · subst h h'; exact SameText.of_ok
        · exact Or.inr (Or.inl h')
      · exact Or.inl h
  | resize n =>
    simp only [StrStep] at h h'
    split at h
    · rename_i hc; rw [if_pos hc] at h'; subst h h'; exact SameText.of_exit
    · rename_i hc; rw [if_neg hc] at h'
      split at h
      · rename_i hc; rw [if_pos hc] at h'; subst h h'; exact SameText.of_ok
      · exact Or.inl h
  | shrink =>
    simp only [StrStep] at h h'
    have p : ∀ {o : Out StrState} {c : Nat}, (if t.length = c then o = .ok ⟨t, c⟩
        else if E.allocOk (t.length + 1) = true then o = .ok ⟨t, t.length⟩ else o = .exit .alloc) →
        (∃ c, o = .ok ⟨t, c⟩) ∨ o = .exit .alloc := by
      intro o c h
      split at h
      · exact Or.inl ⟨_, h⟩
      · split at h
        · exact Or.inl ⟨_, h⟩
        · exact Or.inr h
    rcases p h with ⟨c, rfl⟩ | h
    · rcases p h' with ⟨c, rfl⟩ | h'
      · exact SameText.of_ok
      · exact Or.inr (Or.inl h')
    · exact Or.inl h
  | removeFirst z =>
    simp only [StrStep] at h h'
    rcases h with ⟨i, hi, rfl⟩ | ⟨hn, rfl⟩
    · rcases h' with ⟨j, hj, rfl⟩ | ⟨hn, rfl⟩
      · obtain rfl := hi.unique hj; exact SameText.of_ok
      · exact absurd ⟨_, hi.1⟩ hn
    · rcases h' with ⟨j, hj, rfl⟩ | ⟨-, rfl⟩
      · exact absurd ⟨_, hj.1⟩ hn
      · exact SameText.of_ok
  | removeAll z =>
    simp only [StrStep] at h h'
    obtain ⟨u, d, n, rfl⟩ := h
    obtain ⟨u', d', n', rfl⟩ := h'
    obtain rfl := deletes_unique d d' n n'
    exact SameText.of_ok
  | removeC cs => simp only [StrStep] at h h'; subst h h'; exact SameText.of_ok
  | replace sub rsub =>
    simp only [StrStep] at h h'
    split at h
    · rename_i hc; rw [if_pos hc] at h'; subst h h'; exact SameText.of_ok
    · rename_i hc; rw [if_neg hc] at h'; exact sameText_rewritten h h'
  | replaceFirst sub rsub =>
    simp only [StrStep] at h h'
    split at h
    · rename_i hc; rw [if_pos hc] at h'; subst h h'; exact SameText.of_ok
    · rename_i hc; rw [if_neg hc] at h'
      split at h
      · rename_i hc; rw [if_pos hc] at h'; subst h h'; exact SameText.of_exit
      · rename_i hc; rw [if_neg hc] at h'
        rcases h with ⟨i, hi, h⟩ | ⟨hn, rfl⟩
        · rcases h' with ⟨j, hj, h'⟩ | ⟨hn, rfl⟩
          · obtain rfl := hi.unique hj; exact sameText_rewritten h h'
          · exact absurd ⟨_, hi.1⟩ hn
        · rcases h' with ⟨j, hj, h'⟩ | ⟨-, rfl⟩
          · exact absurd ⟨_, hj.1⟩ hn
          · exact SameText.of_ok
  | replaceC cs rs =>
    simp only [StrStep] at h h'
    split at h
    · rename_i hc; rw [if_pos hc] at h'; subst h h'; exact SameText.of_exit
    · rename_i hc; rw [if_neg hc] at h'
      split at h
      · rename_i hc; rw [if_pos hc] at h'; subst h h'; exact SameText.of_ok
      · rename_i hc; rw [if_neg hc] at h'
        obtain ⟨u, d, rfl⟩ := h
        obtain ⟨u', d', rfl⟩ := h'
        obtain rfl := translated_unique d d'
        exact SameText.of_ok
  | toUpper => simp only [StrStep] at h h'; subst h h'; exact SameText.of_ok
  | toLower => simp only [StrStep] at h h'; subst h h'; exact SameText.of_ok

theorem sameText_run {E : Env} {ops ops' : List StrOp} (hw : WithRoom ops ops') : ∀ {t : Text} {c c' : Nat}
    {o o' : Out StrState}, StrRun E ⟨t, c⟩ ops o → StrRun E ⟨t, c'⟩ ops' o' → SameText o o' := by
  induction hw with
  | nil =>
    intro t c c' o o' h h'
    cases h; cases h'; exact SameText.of_ok
  | @cons op ops ops' _ ih =>
    intro t c c' o o' h h'
    cases h with
    | @cons _ s1 _ _ _ h1 h2 =>
      obtain ⟨t1, c1⟩ := s1
      cases h' with
      | @cons _ s1' _ _ _ h1' h2' =>
        obtain ⟨t1', c1'⟩ := s1'
        rcases sameText_step h1 h1' with h | h | ⟨_, _, h, h', e⟩ | ⟨_, h, -⟩
        · cases h
        · cases h
        · cases h; cases h'; cases e; exact ih h2 h2'
        · cases h
      | @stop _ _ _ w h1' =>
        rcases sameText_step h1 h1' with h | h | ⟨_, _, -, h, -⟩ | ⟨_, h, -⟩
        · cases h
        · exact Or.inr (Or.inl h)
        · cases h
        · cases h
    | @stop _ _ _ w h1 =>
      cases h' with
      | @cons _ s1' _ _ _ h1' h2' =>
        rcases sameText_step h1 h1' with h | h | ⟨_, _, h, -⟩ | ⟨_, -, h⟩
        · exact Or.inl h
        · cases h
        · cases h
        · cases h
      | @stop _ _ _ w' h1' =>
        exact (by
          rcases sameText_step h1 h1' with h | h | ⟨_, _, h, -⟩ | ⟨_, h, h'⟩
          · exact Or.inl h
          · exact Or.inr (Or.inl h)
          · cases h
          · cases h; cases h'; exact SameText.of_exit)
  | @reserve n ops ops' h0 _ ih =>
    intro t c c' o o' h h'
    cases h' with
    | @cons _ s1' _ _ _ h1' h2' =>
      simp only [StrStep, if_neg (Nat.pos_iff_ne_zero.1 h0)] at h1'
      split at h1'
      · cases h1'; exact ih h h2'
      · cases h1'
    | @stop _ _ _ w' h1' =>
      simp only [StrStep, if_neg (Nat.pos_iff_ne_zero.1 h0)] at h1'
      split at h1'
      · cases h1'
      · exact Or.inr (Or.inl h1')
  | @shrink ops ops' _ ih =>
    intro t c c' o o' h h'
    cases h' with
    | @cons _ s1' _ _ _ h1' h2' =>
      simp only [StrStep] at h1'
      split at h1'
      · cases h1'; exact ih h h2'
      · split at h1'
        · cases h1'; exact ih h h2'
        · cases h1'
    | @stop _ _ _ w' h1' =>
      simp only [StrStep] at h1'
      split at h1'
      · cases h1'
      · split at h1'
        · cases h1'
        · exact Or.inr (Or.inl h1')

/-- **C97** Two strings show the same text.  The history `ops` is run on the first, and on the second
the same history with calls of `reserve` and `shrink` put in anywhere.  Then both end with
the same text, or both are stopped by the same check, or one of the two is refused memory. -/
theorem C97_capacity_invisible {E : Env} (hD : E.debug = true) {k : Nat} (hk : 1 ≤ k) {ops ops' : List StrOp}
    (hw : WithRoom ops ops') {v w : Arr} {t : Text} (hv : IsStr v t) (hw' : IsStr w t)
    (lv : LegalRun E ⟨t, v.cap⟩ ops) (lw : LegalRun E ⟨t, w.cap⟩ ops') :
    (∃ v' w' u, runStr E k v ops = .ok v' ∧ runStr E k w ops' = .ok w' ∧ IsStr v' u ∧ IsStr w' u) ∨
    (∃ r, runStr E k v ops = .exit r ∧ runStr E k w ops' = .exit r) ∨
    runStr E k v ops = .exit .alloc ∨ runStr E k w ops' = .exit .alloc := by
  rcases C15_string_wellformed_partial hD hk ops hv lv with ⟨v1, t1, e1, s1, r1⟩ | ⟨x1, e1, r1⟩ <;>
  rcases C15_string_wellformed_partial hD hk ops' hw' lw with ⟨v2, t2, e2, s2, r2⟩ | ⟨x2, e2, r2⟩ <;>
  rcases sameText_run hw r1 r2 with h | h | ⟨_, _, h, h', e⟩ | ⟨_, h, h'⟩ <;>
  first
    | cases h; done
    | cases h'; done
    | skip
  · cases h; cases h'; cases e; exact Or.inl ⟨v1, v2, _, e1, e2, s1, s2⟩
  · cases h; exact Or.inr (Or.inr (Or.inr e2))
  · cases h; exact Or.inr (Or.inr (Or.inl e1))
  · cases h; exact Or.inr (Or.inr (Or.inl e1))
  · cases h; exact Or.inr (Or.inr (Or.inr e2))
  · cases h; cases h'; exact Or.inr (Or.inl ⟨_, e1, e2⟩)

/-- "ab" in a block that just fits and in one with room for nine more characters, and a history that edits,
with and without calls of `reserve` and `shrink`. -/
example : WithRoom [.append (zstr [99, 100]), .remove 1 2, .insert (zstr [101]) 1, .resize 2]
    [.shrink, .append (zstr [99, 100]), .reserve 7, .reserve 3, .remove 1 2, .insert (zstr [101]) 1, .shrink, .resize 2] :=
  .shrink (.cons (.reserve (by decide) (.reserve (by decide) (.cons (.cons (.shrink (.cons .nil)))))))

example : LegalRun exE ⟨[97, 98], 11⟩ [.shrink, .append (zstr [99, 100]), .reserve 7, .reserve 3, .remove 1 2,
    .insert (zstr [101]) 1, .shrink, .resize 2] := by
  refine .cons trivial fun _ _ => .cons ⟨by decide +kernel, by decide +kernel⟩ fun _ _ => ?_
  refine .cons (by simp [Legal]) fun _ _ => .cons (by simp [Legal]) fun _ _ => .cons trivial fun _ _ => ?_
  exact .cons ⟨by decide +kernel, by decide +kernel⟩ fun _ _ => .cons trivial fun _ _ =>
    .cons (by simp [Legal]) fun _ _ => .nil _

example : (runStr exE 1 (strObj [97, 98] 0) [.append (zstr [99, 100]), .remove 1 2, .insert (zstr [101]) 1,
      .resize 2]).mapOk (fun v => (Str.z v, v.cap)) = .ok (.ok [97, 101], 2) ∧
    (runStr exE 1 (strObj [97, 98] 9) [.shrink, .append (zstr [99, 100]), .reserve 7, .reserve 3, .remove 1 2,
      .insert (zstr [101]) 1, .shrink, .resize 2]).mapOk (fun v => (Str.z v, v.cap)) = .ok (.ok [97, 101], 2) := by
  decide +kernel

/-! ### Vectors -/

/-- `cs'` is `cs` with calls of `reserve` (of a non-zero amount) put in; there is no call of `resize`, which makes
the capacity the new length. -/
inductive VecRoom : List VecCall → List VecCall → Prop
  | nil : VecRoom [] []
  | cons {c : VecCall} {cs cs' : List VecCall} : (∀ n, c ≠ .resize n) → VecRoom cs cs' → VecRoom (c :: cs) (c :: cs')
  | reserve {n : Nat} {cs cs' : List VecCall} : 0 < n → VecRoom cs cs' → VecRoom cs (.reserve n :: cs')

/-- Two outcomes of the same calls, one of which may have been refused memory. -/
def SameElems (o o' : Out (SeqState (List Byte))) : Prop :=
  o = .exit .alloc ∨ o' = .exit .alloc ∨
  (∃ s s', o = .ok s ∧ o' = .ok s' ∧ s.elems = s'.elems) ∨ (∃ w, o = .exit w ∧ o' = .exit w)

theorem SameElems.of_ok {l : List (List Byte)} {c c' : Nat} : SameElems (.ok ⟨l, c⟩) (.ok ⟨l, c'⟩) :=
  Or.inr (Or.inr (Or.inl ⟨_, _, rfl, rfl, rfl⟩))

theorem SameElems.of_exit {w : Why} : SameElems (.exit w) (.exit w) := Or.inr (Or.inr (Or.inr ⟨w, rfl, rfl⟩))

theorem sameElems_withRoom {E : Env} {es : Nat} {l u : List (List Byte)} {c c' : Nat} :
    SameElems (withRoom E es ⟨l, c⟩ u) (withRoom E es ⟨l, c'⟩ u) := by
  have p : ∀ c, (∃ c1, withRoom E es ⟨l, c⟩ u = .ok ⟨u, c1⟩) ∨ withRoom E es ⟨l, c⟩ u = .exit .alloc := by
    intro c
    unfold withRoom
    split
    · exact Or.inl ⟨_, rfl⟩
    · split
      · exact Or.inl ⟨_, rfl⟩
      · exact Or.inr rfl
  rcases p c with ⟨_, h⟩ | h
  · rcases p c' with ⟨_, h'⟩ | h'
    · rw [h, h']; exact SameElems.of_ok
    · exact Or.inr (Or.inl h')
  · exact Or.inl h

theorem sameElems_step {E : Env} {es tmp : Nat} {l : List (List Byte)} {c c' : Nat} (h0 : 0 < c) (h0' : 0 < c')
    {op : SeqOp (List Byte)} (hop : ∀ n, op ≠ .resize n) {o o' : Out (SeqState (List Byte))}
    (h : SeqStep E es tmp ⟨l, c⟩ op o) (h' : SeqStep E es tmp ⟨l, c'⟩ op o') : SameElems o o' := by
  cases op with
  | pushBack x => simp only [SeqStep] at h h'; subst h h'; exact sameElems_withRoom
  | pushFront x => simp only [SeqStep] at h h'; subst h h'; exact sameElems_withRoom
  | insert x i =>
    simp only [SeqStep] at h h'
    split at h
    · rename_i hc; rw [if_pos hc] at h'; subst h h'; exact sameElems_withRoom
    · rename_i hc; rw [if_neg hc] at h'; subst h h'; exact SameElems.of_exit
  | set x i =>
    simp only [SeqStep] at h h'
    split at h
    · rename_i hc; rw [if_pos hc] at h'; subst h h'; exact SameElems.of_ok
    · rename_i hc; rw [if_neg hc] at h'; subst h h'; exact SameElems.of_exit
  | removeStable i =>
    simp only [SeqStep] at h h'
    split at h
    · rename_i hc; rw [if_pos hc] at h'; subst h h'; exact SameElems.of_ok
    · rename_i hc; rw [if_neg hc] at h'; subst h h'; exact SameElems.of_exit
  | removeFast i =>
    simp only [SeqStep] at h h'
    split at h
    · rename_i hc; rw [if_pos hc] at h'
      split at h
      · rename_i hc; rw [if_pos hc] at h'; subst h h'; exact SameElems.of_ok
      · rename_i hc; rw [if_neg hc] at h'; subst h h'; exact SameElems.of_exit
    · rename_i hc; rw [if_neg hc] at h'; subst h h'; exact SameElems.of_exit
  | pop => simp only [SeqStep] at h h'; subst h h'; exact SameElems.of_ok
  | clear => simp only [SeqStep] at h h'; subst h h'; exact SameElems.of_ok
  | reserve n =>
    simp only [SeqStep] at h h'
    split at h
    · rename_i hc; rw [if_pos hc] at h'; subst h h'; exact SameElems.of_exit
    · rename_i hc; rw [if_neg hc] at h'
      split at h
      · split at h'
        · subst h h'; exact SameElems.of_ok
        · exact Or.inr (Or.inl h')
      · exact Or.inl h
  | resize n => exact absurd rfl (hop n)
  | shrink =>
    simp only [SeqStep] at h h'
    by_cases hl : l.length = 0
    · rw [if_neg (by omega), if_pos hl] at h h'
      subst h h'; exact SameElems.of_exit
    · have p : ∀ {o : Out (SeqState (List Byte))} {c : Nat}, (if l.length = c then o = .ok ⟨l, c⟩
          else if l.length = 0 then o = .exit .cAssert
          else if E.allocOk (l.length * es) = true then o = .ok ⟨l, l.length⟩ else o = .exit .alloc) →
          (∃ c, o = .ok ⟨l, c⟩) ∨ o = .exit .alloc := by
        intro o c h
        rw [if_neg hl] at h
        split at h
        · exact Or.inl ⟨_, h⟩
        · split at h
          · exact Or.inl ⟨_, h⟩
          · exact Or.inr h
      rcases p h with ⟨c, rfl⟩ | h
      · rcases p h' with ⟨c, rfl⟩ | h'
        · exact SameElems.of_ok
        · exact Or.inr (Or.inl h')
      · exact Or.inl h

/-- **C97** (vectors) Two vectors hold the same elements.  The history `cs` (without `resize`) is run on the first, and
on the second the same history with calls of `reserve` put in anywhere.  Then both end with the same elements,
or both are stopped by the same check, or one of the two is refused memory. -/
theorem C97_vector_capacity_invisible {E : Env} (hD : E.debug = true) (hI : E.isoMemcpy = false)
    {cs cs' : List VecCall} (hr : VecRoom cs cs') : ∀ {v w : Arr}, v.WF → w.WF → v.elsize = w.elsize →
    v.elems = w.elems → (∀ c ∈ cs', c.Fits v.elsize) →
    (∃ v' w', runVec E v cs = .ok v' ∧ runVec E w cs' = .ok w' ∧ v'.elems = w'.elems) ∨
    (∃ r, runVec E v cs = .exit r ∧ runVec E w cs' = .exit r) ∨
    runVec E v cs = .exit .alloc ∨ runVec E w cs' = .exit .alloc := by
  induction hr with
  | nil => intro v w _ _ _ he _; exact Or.inl ⟨v, w, rfl, rfl, he⟩
  | @cons c cs cs' hc _ ih =>
    intro v w hv hw hes he hf
    have hfc := hf c (by simp)
    obtain ⟨a1, a2, a3⟩ := vecStep hD hI hv c hfc
    obtain ⟨b1, b2, b3⟩ := vecStep hD hI hw c (hes ▸ hfc)
    rw [← hes] at b1
    have hop : ∀ n, c.toOp v.elsize ≠ .resize n := by
      intro n h
      cases c <;> simp [VecCall.toOp] at h
      exact hc _ rfl
    have hs := sameElems_step (c := v.cap) (c' := w.cap) (l := v.elems) hv.cap hw.cap hop a1
      (by rw [he]; exact b1)
    simp only [runVec]
    cases hrv : c.run E v with
    | ok v1 =>
      obtain ⟨g1, g2⟩ := a2 v1 hrv
      cases hrw : c.run E w with
      | ok w1 =>
        obtain ⟨k1, k2⟩ := b2 w1 hrw
        rw [hrv, hrw] at hs
        have e : v1.elems = w1.elems := by
          rcases hs with h | h | ⟨_, _, h, h', e⟩ | ⟨_, h, -⟩
          · cases h
          · cases h
          · cases h; cases h'; exact e
          · cases h
        rw [bind_ok, bind_ok]
        exact ih g1 k1 (by rw [g2.1, k2.1, hes]) e (by rw [g2.1]; exact fun c hc => hf c (by simp [hc]))
      | exit r =>
        rw [hrv, hrw] at hs
        rcases hs with h | h | ⟨_, _, -, h, -⟩ | ⟨_, h, -⟩
        · cases h
        · cases h; exact Or.inr (Or.inr (Or.inr rfl))
        · cases h
        · cases h
      | ub => exact absurd hrw b3.1
      | fuel => exact absurd hrw b3.2
    | exit r =>
      cases hrw : c.run E w with
      | ok w1 =>
        rw [hrv, hrw] at hs
        rcases hs with h | h | ⟨_, _, h, -⟩ | ⟨_, -, h⟩
        · cases h; exact Or.inr (Or.inr (Or.inl rfl))
        · cases h
        · cases h
        · cases h
      | exit r' =>
        rw [hrv, hrw] at hs
        rcases hs with h | h | ⟨_, _, h, -⟩ | ⟨_, h, h'⟩
        · cases h; exact Or.inr (Or.inr (Or.inl rfl))
        · cases h; exact Or.inr (Or.inr (Or.inr rfl))
        · cases h
        · cases h; cases h'; exact Or.inr (Or.inl ⟨_, rfl, rfl⟩)
      | ub => exact absurd hrw b3.1
      | fuel => exact absurd hrw b3.2
    | ub => exact absurd hrv a3.1
    | fuel => exact absurd hrv a3.2
  | @reserve n cs cs' h0 _ ih =>
    intro v w hv hw hes he hf
    obtain ⟨b1, b2, b3⟩ := vecStep hD hI hw (.reserve n) (hes ▸ hf (.reserve n) (by simp))
    simp only [VecCall.toOp, SeqStep, if_neg (Nat.pos_iff_ne_zero.1 h0)] at b1
    simp only [runVec]
    cases hrw : VecCall.run E w (.reserve n) with
    | ok w1 =>
      obtain ⟨k1, k2⟩ := b2 w1 hrw
      rw [hrw] at b1
      have e : w1.elems = w.elems := by
        split at b1
        · injection b1 with b1; exact congrArg SeqState.elems b1
        · cases b1
      rw [bind_ok]
      exact ih hv k1 (by rw [k2.1, hes]) (by rw [e, he]) (fun c hc => hf c (by simp [hc]))
    | exit r =>
      rw [hrw] at b1
      split at b1
      · cases b1
      · cases b1; exact Or.inr (Or.inr (Or.inr rfl))
    | ub => exact absurd hrw b3.1
    | fuel => exact absurd hrw b3.2

example : (runVec exE exV [.pushBack [some 7, some 0, some 0, some 0], .pushFront [some 8, some 0, some 0, some 0], .shrink,
      .removeStable 1]).mapOk (fun v => (v.elems, v.cap)) =
    (runVec exE exV [.reserve 4, .pushBack [some 7, some 0, some 0, some 0], .pushFront [some 8, some 0, some 0, some 0],
      .reserve 1, .shrink, .removeStable 1]).mapOk (fun v => (v.elems, v.cap)) ∧
    (runVec exE exV [.pushBack [some 7, some 0, some 0, some 0], .pushFront [some 8, some 0, some 0, some 0], .shrink,
      .removeStable 1]).mapOk (fun v => v.elems.map List.head?) = .ok [some (some 8), some (some 2), some (some 7)] := by
  decide +kernel

/-- `shrink` may not be put in anywhere: an empty vector cannot be shrunk. -/
example : (runVec exE exV [.clear, .shrink]) = .exit .cAssert ∧ (runVec exE exV [.clear]).mapOk Arr.elems = .ok [] := by
  decide +kernel

end Vita
