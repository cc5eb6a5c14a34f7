import Verif.Lemmas.OwnerEnds
import Verif.Lemmas.StrQuery
import Verif.Props.StrQuery
import Verif.Props.Math
import Verif.Props.Owner
import Verif.Props.PathAny
import Verif.Model.PathFs
import Verif.Model.PathText
import Mathlib.Tactic.Linarith
/-!
# Which calls end (C123)

The loops of the model get a number of rounds.  Here it is shown that this number is no part of the meaning: enough rounds always give the same
outcome, and how many are enough; or that no number of rounds is enough, that is, the call runs forever.
-/

namespace Vita
open Out Spec

/-- The call comes to one and the same end (it returns, terminates the program on purpose or becomes undefined) whenever its loops may
go on for `K` rounds or more. -/
def EndsBy (K : Nat) (f : Nat → Out α) : Prop := ∃ r, r ≠ .fuel ∧ ∀ k, K ≤ k → f k = r

/-- The call runs forever. -/
def NeverEnds (f : Nat → Out α) : Prop := ∀ k, f k = .fuel

theorem C123_not_both {K : Nat} {f : Nat → Out α} (h : EndsBy K f) : ¬ NeverEnds f := by
  obtain ⟨r, hr, h⟩ := h
  intro hn
  exact hr ((h K (Nat.le_refl _)).symm.trans (hn K))

/-! ### More rounds do not change an outcome -/

/-- An outcome reached with `k` rounds is also reached with one more. -/
def Steady (f : Nat → Out α) : Prop := ∀ k, f k ≠ .fuel → f (k + 1) = f k

theorem Steady.const (r : Out α) : Steady (fun _ => r) := fun _ _ => rfl

theorem Steady.bind {f : Nat → Out α} {g : α → Nat → Out β} (h : Steady f) (hg : ∀ a, Steady (g a)) : Steady (fun k => f k >>= fun a => g a k) := by
  intro k hk
  dsimp only at hk ⊢
  cases hf : f k with
  | fuel => rw [hf] at hk; exact absurd rfl hk
  | ok a =>
    rw [h k (by rw [hf]; simp), hf, bind_ok, bind_ok]
    rw [hf, bind_ok] at hk
    exact hg a k hk
  | exit w => rw [h k (by rw [hf]; simp), hf]; rfl
  | ub => rw [h k (by rw [hf]; simp), hf]; rfl

theorem Steady.ite {c : Prop} [Decidable c] {f g : Nat → Out α} (hf : Steady f) (hg : Steady g) : Steady (fun k => if c then f k else g k) := by
  split
  · exact hf
  · exact hg

theorem Steady.endsBy {f : Nat → Out α} (h : Steady f) {K : Nat} (hK : f K ≠ .fuel) : EndsBy K f := by
  refine ⟨f K, hK, fun k hk => ?_⟩
  induction k, hk using Nat.le_induction with
  | base => rfl
  | succ k _ ih => rw [h k (by rw [ih]; exact hK), ih]

/-! ### Code without loops that depend on a number of rounds -/

/-- The number of rounds was enough. -/
structure NF (o : Out α) : Prop where
  ne : o ≠ .fuel

theorem nf_bind {x : Out α} {f : α → Out β} (h : NF x) (hf : ∀ a, x = .ok a → NF (f a)) : NF (x >>= f) := by
  cases x with
  | ok a => exact hf a rfl
  | fuel => exact absurd rfl h.ne
  | _ => exact ⟨by simp⟩

theorem nf_dassert (E : Env) (c : Bool) : NF (dassert E c) := by unfold dassert; split <;> exact ⟨by simp⟩
theorem nf_cassert (E : Env) (c : Bool) : NF (cassert E c) := by unfold cassert; split <;> exact ⟨by simp⟩
theorem nf_enforce (c : Bool) : NF (enforce c) := by unfold enforce; split <;> exact ⟨by simp⟩
theorem nf_readN (m : Mem) (o n : Nat) : NF (readN m o n) := by unfold readN; split <;> exact ⟨by simp⟩
theorem nf_writeN (m : Mem) (o : Nat) (b : List Byte) : NF (writeN m o b) := by unfold writeN; split <;> exact ⟨by simp⟩
theorem nf_getc (m : Mem) (i : Nat) : NF (getc m i) := by unfold getc; split <;> exact ⟨by simp⟩
theorem nf_putc (m : Mem) (i : Nat) (c : UInt8) : NF (putc m i c) := nf_writeN ..
theorem nf_scanZ : ∀ m : Mem, NF (scanZ m)
  | [] => ⟨by simp [scanZ]⟩
  | none :: _ => ⟨by simp [scanZ]⟩
  | some c :: t => by
    unfold scanZ
    split
    · exact ⟨by simp⟩
    · exact nf_bind (nf_scanZ t) (fun _ _ => ⟨by simp⟩)
theorem nf_cstrAt (m : Mem) (o : Nat) : NF (cstrAt m o) := by
  unfold cstrAt
  split
  · exact nf_scanZ _
  · exact ⟨by simp⟩
theorem nf_strlen (m : Mem) : NF (strlen m) := nf_bind (nf_scanZ m) (fun _ _ => ⟨by simp⟩)
theorem nf_strlenAt (m : Mem) (o : Nat) : NF (strlenAt m o) := nf_bind (nf_cstrAt m o) (fun _ _ => ⟨by simp⟩)
theorem nf_strstrAt (m : Mem) (o : Nat) (s : Mem) : NF (strstrAt m o s) :=
  nf_bind (nf_cstrAt m o) fun _ _ => nf_bind (nf_scanZ s) fun _ _ => ⟨by simp⟩
theorem nf_vtMemmove (m : Mem) (d s n : Nat) : NF (vtMemmove m d s n) := by
  unfold vtMemmove memmove
  split
  · exact ⟨by simp⟩
  · exact nf_bind (nf_readN ..) fun _ _ => nf_writeN ..
theorem nf_vtMemset (m : Mem) (d : Nat) (b : UInt8) (n : Nat) : NF (vtMemset m d b n) := by
  unfold vtMemset memset
  split
  · exact ⟨by simp⟩
  · exact nf_writeN ..
theorem nf_vtCalloc (E : Env) (n : Nat) : NF (vtCalloc E n) := by
  unfold vtCalloc
  refine nf_bind (nf_cassert ..) fun _ _ => ?_
  split <;> exact ⟨by simp⟩
theorem nf_vtRealloc (E : Env) (m : Mem) (n : Nat) : NF (vtRealloc E m n) := by
  unfold vtRealloc
  refine nf_bind (nf_cassert ..) fun _ _ => ?_
  split
  · exact ⟨by simp⟩
  · split <;> exact ⟨by simp⟩
theorem nf_vtMemcpyIn (m : Mem) (d : Nat) (z : Mem) (n : Nat) : NF (vtMemcpyIn m d z n) := by
  unfold vtMemcpyIn
  split
  · exact ⟨by simp⟩
  · unfold memcpyIn
    exact nf_bind (nf_readN ..) fun _ _ => nf_writeN ..
theorem nf_clear (s : Arr) : NF (Str.clear s) := nf_bind (nf_putc ..) fun _ _ => ⟨by simp⟩
theorem nf_createLen (E : Env) (n : Nat) : NF (Str.createLen E n) :=
  nf_bind (nf_dassert ..) fun _ _ => nf_bind (nf_vtCalloc ..) fun _ _ => nf_bind (nf_vtCalloc ..) fun _ _ => nf_bind (nf_vtMemset ..) fun _ _ => ⟨by simp⟩
theorem nf_createCapacity (E : Env) (n : Nat) : NF (Str.createCapacity E n) :=
  nf_bind (nf_dassert ..) fun _ _ => nf_bind (nf_createLen ..) fun _ _ => nf_clear _
theorem nf_setN (E : Env) (s : Arr) (z : Mem) (n : Nat) : NF (Str.setN E s z n) :=
  nf_bind (nf_dassert ..) fun _ _ => nf_bind (nf_enforce ..) fun _ _ => nf_bind (nf_vtMemcpyIn ..) fun _ _ => nf_bind (nf_putc ..) fun _ _ => ⟨by simp⟩
theorem nf_create (E : Env) (z : Mem) : NF (Str.create E z) :=
  nf_bind (nf_strlen ..) fun _ _ => nf_bind (nf_createLen ..) fun _ _ => nf_setN ..
theorem nf_reserve (E : Env) (s : Arr) (n : Nat) : NF (Str.reserve E s n) :=
  nf_bind (nf_dassert ..) fun _ _ => nf_bind (nf_enforce ..) fun _ _ => nf_bind (nf_vtRealloc ..) fun _ _ => nf_bind (nf_putc ..) fun _ _ => ⟨by simp⟩
theorem nf_grow (E : Env) (s : Arr) (n : Nat) : NF (Str.grow E s n) := by
  unfold Str.grow
  split
  · exact nf_reserve ..
  · exact ⟨by simp⟩
theorem nf_appendN (E : Env) (s : Arr) (z : Mem) (n : Nat) : NF (Str.appendN E s z n) :=
  nf_bind (nf_dassert ..) fun _ _ => nf_bind (nf_grow ..) fun _ _ => nf_bind (nf_vtMemcpyIn ..) fun _ _ => nf_bind (nf_putc ..) fun _ _ => ⟨by simp⟩
theorem nf_append (E : Env) (s : Arr) (z : Mem) : NF (Str.append E s z) := nf_bind (nf_strlen ..) fun _ _ => nf_appendN ..
theorem nf_insert (E : Env) (s : Arr) (z : Mem) (i : Nat) : NF (Str.insert E s z i) :=
  nf_bind (nf_dassert ..) fun _ _ => nf_bind (nf_strlen ..) fun _ _ => nf_bind (nf_grow ..) fun _ _ => nf_bind (nf_vtMemmove ..) fun _ _ =>
    nf_bind (nf_vtMemcpyIn ..) fun _ _ => nf_bind (nf_putc ..) fun _ _ => ⟨by simp⟩
theorem nf_remove (E : Env) (s : Arr) (i n : Nat) : NF (Str.remove E s i n) :=
  nf_bind (nf_dassert ..) fun _ _ => nf_bind (nf_dassert ..) fun _ _ => nf_bind (nf_vtMemmove ..) fun _ _ => nf_bind (nf_putc ..) fun _ _ => ⟨by simp⟩
theorem nf_replaceAt (E : Env) (s : Arr) (i n r : Nat) (z : Mem) : NF (Str.replaceAt E s i n r z) := by
  unfold Str.replaceAt
  split
  · exact nf_bind (nf_vtMemcpyIn ..) fun _ _ => ⟨by simp⟩
  · refine nf_bind (nf_remove ..) fun _ _ => ?_
    split
    · exact nf_insert ..
    · exact nf_append ..
theorem nf_removeFirst (s : Arr) (z : Mem) : NF (Str.removeFirst s z) := by
  unfold Str.removeFirst
  refine nf_bind (nf_strstrAt ..) fun r _ => ?_
  cases r with
  | none => exact ⟨by simp⟩
  | some i => exact nf_bind (nf_strlen ..) fun _ _ => nf_bind (nf_vtMemmove ..) fun _ _ => nf_bind (nf_putc ..) fun _ _ => ⟨by simp⟩


/-! ### The loops: the number of rounds is no part of the outcome -/

theorem lastInstance_steady (m z : Mem) (n : Nat) : ∀ p, Steady (fun k => Str.lastInstance m z n k p) := by
  intro p k
  induction k generalizing p with
  | zero => intro h; exact absurd rfl h
  | succ k ih =>
    intro hk
    dsimp only at hk ⊢ ih
    rw [Str.lastInstance] at hk
    rw [Str.lastInstance, Str.lastInstance]
    cases e : strstrAt m (p + n) z with
    | ok r =>
      rw [e, bind_ok] at hk
      rw [bind_ok, bind_ok]
      cases r with
      | none => rfl
      | some q => exact ih q hk
    | _ => rfl

theorem countLoop_steady (m z : Mem) (n : Nat) : ∀ p c, Steady (fun k => Str.countLoop m z n k p c) := by
  intro p c k
  induction k generalizing p c with
  | zero => intro h; exact absurd rfl h
  | succ k ih =>
    intro hk
    dsimp only at hk ⊢ ih
    rw [Str.countLoop] at hk
    rw [Str.countLoop, Str.countLoop]
    cases e : strstrAt m p z with
    | ok r =>
      rw [e, bind_ok] at hk
      rw [bind_ok, bind_ok]
      cases r with
      | none => rfl
      | some q => exact ih _ _ hk
    | _ => rfl

theorem removeAll_steady (z : Mem) : ∀ s, Steady (fun k => Str.removeAll k s z) := by
  intro s k
  induction k generalizing s with
  | zero => intro h; exact absurd rfl h
  | succ k ih =>
    intro hk
    dsimp only at hk ⊢ ih
    rw [Str.removeAll] at hk
    rw [Str.removeAll, Str.removeAll]
    cases e : Str.removeFirst s z with
    | ok r =>
      rw [e, bind_ok] at hk
      rw [bind_ok, bind_ok]
      split
      · next hr => rw [if_pos hr] at hk; exact ih _ hk
      · rfl
    | _ => rfl

theorem replaceLoop_steady (E : Env) (z r : Mem) (n l : Nat) : ∀ s p, Steady (fun k => Str.replaceLoop E z r n l k s p) := by
  intro s p k
  induction k generalizing s p with
  | zero => intro h; exact absurd rfl h
  | succ k ih =>
    intro hk
    dsimp only at hk ⊢ ih
    rw [Str.replaceLoop] at hk
    rw [Str.replaceLoop, Str.replaceLoop]
    cases e : strstrAt s.mem p z with
    | ok q =>
      rw [e, bind_ok] at hk
      rw [bind_ok, bind_ok]
      cases q with
      | none => rfl
      | some i =>
        dsimp only at hk ⊢
        cases e2 : Str.replaceAt E s i n l r with
        | ok s' =>
          rw [e2, bind_ok] at hk
          rw [bind_ok, bind_ok]
          exact ih _ _ hk
        | _ => rfl
    | _ => rfl

theorem stripFront_steady (p : UInt8 → Bool) (m : Mem) : ∀ o, Steady (fun k => Str.stripFront p m k o) := by
  intro o k
  induction k generalizing o with
  | zero => intro h; exact absurd rfl h
  | succ k ih =>
    intro hk
    dsimp only at hk ⊢ ih
    change (getc m o >>= fun x => if p x then Str.stripFront p m k (o + 1) else .ok o) ≠ .fuel at hk
    change (getc m o >>= fun x => if p x then Str.stripFront p m (k + 1) (o + 1) else .ok o) =
      (getc m o >>= fun x => if p x then Str.stripFront p m k (o + 1) else .ok o)
    cases e : getc m o with
    | ok x =>
      rw [e, bind_ok] at hk
      rw [bind_ok, bind_ok]
      split
      · next hr => rw [if_pos hr] at hk; exact ih _ hk
      · rfl
    | _ => rfl

theorem stripBack_steady (p : UInt8 → Bool) (m : Mem) (o : Nat) : ∀ l, Steady (fun k => Str.stripBack p m o k l) := by
  intro l k
  induction k generalizing l with
  | zero => intro h; exact absurd rfl h
  | succ k ih =>
    intro hk
    dsimp only at hk ⊢ ih
    change (getc m (wsub (wadd l o) 1) >>= fun x => if p x then Str.stripBack p m o k (wsub l 1) else .ok l) ≠ .fuel at hk
    change (getc m (wsub (wadd l o) 1) >>= fun x => if p x then Str.stripBack p m o (k + 1) (wsub l 1) else .ok l) =
      (getc m (wsub (wadd l o) 1) >>= fun x => if p x then Str.stripBack p m o k (wsub l 1) else .ok l)
    cases e : getc m (wsub (wadd l o) 1) with
    | ok x =>
      rw [e, bind_ok] at hk
      rw [bind_ok, bind_ok]
      split
      · next hr => rw [if_pos hr] at hk; exact ih _ hk
      · rfl
    | _ => rfl

theorem splitLoop_steady (E : Env) (m z : Mem) (n : Nat) : ∀ p acc, Steady (fun k => Str.splitLoop E m z n k p acc) := by
  intro p acc k
  induction k generalizing p acc with
  | zero => intro h; exact absurd rfl h
  | succ k ih =>
    have st : ∀ (j : Nat), Str.splitLoop E m z n (j + 1) p acc = (strstrAt m p z >>= fun current => strlenAt m p >>= fun hl =>
        (match current with
          | none => .ok 0
          | some c => strlenAt m c) >>= fun cl =>
        if wsub hl cl = 0 then Str.splitLoop E m z n j (p + n) acc else
          Str.createLen E (wsub hl cl) >>= fun t => Str.setN E t (m.drop p) (wsub hl cl) >>= fun t =>
          match current with
          | none => .ok (acc ++ [t])
          | some c => getc m (c + n) >>= fun x => if x = 0 then .ok (acc ++ [t]) else Str.splitLoop E m z n j (c + n) (acc ++ [t])) := by
      intro j
      rw [Str.splitLoop]
      rfl
    intro hk
    dsimp only at hk ⊢ ih
    rw [st] at hk
    rw [st, st]
    cases e : strstrAt m p z with
    | ok cur =>
      rw [e, bind_ok] at hk
      rw [bind_ok, bind_ok]
      cases e2 : strlenAt m p with
      | ok hl =>
        rw [e2, bind_ok] at hk
        rw [bind_ok, bind_ok]
        generalize hcl : (match cur with
          | none => Out.ok 0
          | some c => strlenAt m c) = cl at hk ⊢
        cases cl with
        | ok cl =>
          rw [bind_ok] at hk ⊢
          rw [bind_ok]
          by_cases h0 : wsub hl cl = 0
          · rw [if_pos h0] at hk ⊢
            rw [if_pos h0]
            exact ih _ _ hk
          · rw [if_neg h0] at hk ⊢
            rw [if_neg h0]
            cases e3 : Str.createLen E (wsub hl cl) with
            | ok t =>
              rw [e3, bind_ok] at hk
              rw [bind_ok, bind_ok]
              cases e4 : Str.setN E t (m.drop p) (wsub hl cl) with
              | ok t' =>
                rw [e4, bind_ok] at hk
                rw [bind_ok, bind_ok]
                cases cur with
                | none => rfl
                | some c =>
                  dsimp only at hk ⊢
                  cases e5 : getc m (c + n) with
                  | ok x =>
                    rw [e5, bind_ok] at hk
                    rw [bind_ok, bind_ok]
                    by_cases hx : x = 0
                    · rw [if_pos hx, if_pos hx]
                    · rw [if_neg hx] at hk ⊢
                      rw [if_neg hx]
                      exact ih _ _ hk
                  | _ => rfl
              | _ => rfl
            | _ => rfl
        | _ => rfl
      | _ => rfl
    | _ => rfl

theorem revLoop_steady : ∀ t r, Steady (fun k => Math.revLoop k t r) := by
  intro t r k
  induction k generalizing t r with
  | zero => intro h; exact absurd rfl h
  | succ k ih =>
    intro hk
    dsimp only at hk ⊢ ih
    rw [Math.revLoop.eq_2] at hk
    change (if t > 0 then Math.revLoop (k + 1) (t / 10) (wadd (wmul r 10) (t % 10)) else .ok r) =
      (if t > 0 then Math.revLoop k (t / 10) (wadd (wmul r 10) (t % 10)) else .ok r)
    by_cases h0 : t > 0
    · rw [if_pos h0] at hk ⊢
      rw [if_pos h0]
      exact ih _ _ hk
    · rw [if_neg h0, if_neg h0]

theorem gcdLoop_steady : ∀ a b, Steady (fun k => Math.gcdLoop k a b) := by
  intro a b k
  induction k generalizing a b with
  | zero => intro h; exact absurd rfl h
  | succ k ih =>
    intro hk
    dsimp only at hk ⊢ ih
    rw [Math.gcdLoop] at hk
    rw [Math.gcdLoop, Math.gcdLoop]
    cases e : Math.imod a b with
    | ok r =>
      rw [e, bind_ok] at hk
      rw [bind_ok, bind_ok]
      split
      · next hr => rw [if_pos hr] at hk; exact ih _ _ hk
      · rfl
    | _ => rfl

/-! ### How many rounds are enough -/

theorem strstrAt_far {m z : Mem} {p : Nat} (h : m.length ≤ p) : strstrAt m p z = .ub := by
  simp only [strstrAt, cstrAt, if_neg (show ¬ p < m.length by omega), bind_ub]

theorem nf_lastInstance {m z : Mem} {n : Nat} (hn : strlen z = .ok n) (h0 : 0 < n) :
    ∀ (k p : Nat), m.length - p < k → NF (Str.lastInstance m z n k p) := by
  intro k
  induction k with
  | zero => intro p h; omega
  | succ k ih =>
    intro p h
    rw [Str.lastInstance]
    refine nf_bind (nf_strstrAt ..) fun r hr => ?_
    cases r with
    | none => exact ⟨by simp⟩
    | some q =>
      have hb := strstrAt_bounds hn hr
      exact ih q (by omega)

theorem nf_countLoop {m z : Mem} {n : Nat} (hn : strlen z = .ok n) (h0 : 0 < n) :
    ∀ (k p c : Nat), m.length - p < k → NF (Str.countLoop m z n k p c) := by
  intro k
  induction k with
  | zero => intro p c h; omega
  | succ k ih =>
    intro p c h
    rw [Str.countLoop]
    refine nf_bind (nf_strstrAt ..) fun r hr => ?_
    cases r with
    | none => exact ⟨by simp⟩
    | some q =>
      have hb := strstrAt_bounds hn hr
      exact ih _ _ (by omega)

theorem nf_splitLoop {E : Env} {m z : Mem} {n : Nat} (hn : strlen z = .ok n) (h0 : 0 < n) :
    ∀ (k p : Nat) (acc : List Arr), m.length - p < k → NF (Str.splitLoop E m z n k p acc) := by
  intro k
  induction k with
  | zero => intro p c h; omega
  | succ k ih =>
    intro p acc h
    rw [Str.splitLoop]
    refine nf_bind (nf_strstrAt ..) fun r hr => ?_
    have hp : p < m.length := by
      rcases Nat.lt_or_ge p m.length with hp | hp
      · exact hp
      · rw [strstrAt_far hp] at hr; simp at hr
    refine nf_bind (nf_strlenAt ..) fun hl _ => nf_bind (by cases r <;> [exact ⟨by simp⟩; exact nf_strlenAt ..]) fun cl _ => ?_
    dsimp only
    split
    · exact ih _ _ (by omega)
    · refine nf_bind (nf_createLen ..) fun t _ => nf_bind (nf_setN ..) fun t _ => ?_
      cases r with
      | none => exact ⟨by simp⟩
      | some c =>
        refine nf_bind (nf_getc ..) fun x _ => ?_
        have hb := strstrAt_bounds hn hr
        split
        · exact ⟨by simp⟩
        · exact ih _ _ (by omega)

theorem getc_far {m : Mem} {i : Nat} (h : m.length ≤ i) : getc m i = .ub := by
  simp only [getc, List.getElem?_eq_none h]

theorem nf_stripFront {p : UInt8 → Bool} {m : Mem} : ∀ (k o : Nat), m.length - o < k → NF (Str.stripFront p m k o) := by
  intro k
  induction k with
  | zero => intro o h; omega
  | succ k ih =>
    intro o h
    rw [Str.stripFront]
    refine nf_bind (nf_getc ..) fun x hx => ?_
    have ho : o < m.length := by
      rcases Nat.lt_or_ge o m.length with hp | hp
      · exact hp
      · rw [getc_far hp] at hx; simp at hx
    split
    · exact ih _ (by omega)
    · exact ⟨by simp⟩

theorem nf_stripBack {p : UInt8 → Bool} {m : Mem} (hm : m.length < 2 ^ 64) {o : Nat} :
    ∀ (k l : Nat), (wadd l o < k ∨ m.length < wadd l o) → 0 < k → NF (Str.stripBack p m o k l) := by
  intro k
  induction k with
  | zero => intro l h h0; omega
  | succ k ih =>
    intro l h _
    rw [Str.stripBack]
    refine nf_bind (nf_getc ..) fun x hx => ?_
    have hi : wsub (wadd l o) 1 < m.length := by
      rcases Nat.lt_or_ge (wsub (wadd l o) 1) m.length with hp | hp
      · exact hp
      · rw [getc_far hp] at hx; simp at hx
    have h1 : 0 < wadd l o ∧ wadd (wsub l 1) o + 1 = wadd l o ∧ wadd l o ≤ m.length := by
      unfold wadd wsub at *
      omega
    split
    · exact ih _ (.inl (by omega)) (by omega)
    · exact ⟨by simp⟩

theorem nf_removeAll {z : Mem} {n : Nat} (hn : strlen z = .ok n) (h0 : 0 < n) :
    ∀ (k : Nat) (s : Arr), s.elsize = 1 → s.len < 2 ^ 64 → s.mem.length < 2 ^ 63 → s.len < k → NF (Str.removeAll k s z) := by
  intro k
  induction k with
  | zero => intro s _ _ _ h; omega
  | succ k ih =>
    intro s he hl hm h
    rw [Str.removeAll]
    refine nf_bind (nf_removeFirst ..) fun r hr => ?_
    split
    · next hf =>
      unfold Str.removeFirst at hr
      simp only [bind_eq_ok] at hr
      obtain ⟨q, hq, hr⟩ := hr
      cases q with
      | none => injection hr with hr; rw [← hr] at hf; simp at hf
      | some i =>
        have hb := strstrAt_bounds hn hq
        simp only [hn, bind_ok, bind_eq_ok, he] at hr
        obtain ⟨m1, h1, m2, h2, h3⟩ := hr
        have l1 : m1.length = s.mem.length ∧ i + n ≤ s.len := by
          rw [wmul_eq (a := n) (by omega), wmul_eq (a := s.len) (by omega), Nat.mul_one, Nat.mul_one, wadd_eq (by omega)] at h1
          unfold vtMemmove memmove readN writeN at h1
          split at h1
          · next hz =>
            injection h1 with h1
            refine ⟨by rw [h1], ?_⟩
            unfold wmul wsub at hz
            omega
          · simp only [bind_eq_ok] at h1
            obtain ⟨bs, hbs, h1⟩ := h1
            split at hbs
            · next hz =>
              injection hbs with hbs
              split at h1
              · next hw =>
                injection h1 with h1
                refine ⟨by rw [← h1]; simp only [List.length_append, List.length_take, List.length_drop]; omega, ?_⟩
                unfold wmul wsub at hz
                omega
              · simp at h1
            · simp at hbs
        have l2 : m2.length = m1.length := by
          unfold putc writeN at h2
          split at h2
          · next hw =>
            injection h2 with h2
            rw [← h2]
            simp only [List.length_append, List.length_take, List.length_drop] at hw ⊢
            omega
          · simp at h2
        injection h3 with h3
        rw [← h3]
        have e : wsub s.len n = s.len - n := wsub_eq (by omega) hl
        refine ih _ rfl ?_ ?_ ?_
        · show wsub s.len n < _
          omega
        · show m2.length < _
          omega
        · show wsub s.len n < _
          omega
    · exact ⟨by simp⟩

theorem mod_half {a b : Nat} (hb : 0 < b) (h : b < a) : 2 * (a % b) < a := by
  have h1 := Nat.mod_lt a hb
  have h2 := Nat.div_add_mod a b
  have h3 : 1 ≤ a / b := (Nat.one_le_div_iff hb).2 h.le
  have h4 : b * 1 ≤ b * (a / b) := Nat.mul_le_mul_left b h3
  omega

theorem nf_imod (a b : Int) : NF (Math.imod a b) := by unfold Math.imod; split <;> exact ⟨by simp⟩
theorem nf_idiv (a b : Int) : NF (Math.idiv a b) := by unfold Math.idiv; split <;> exact ⟨by simp⟩
theorem nf_imul (a b : Int) : NF (Math.imul a b) := by unfold Math.imul; split <;> exact ⟨by simp⟩

theorem imod_val {a b r : Int} (h : Math.imod a b = .ok r) : b ≠ 0 ∧ r.natAbs = a.natAbs % b.natAbs := by
  unfold Math.imod at h
  split at h
  · simp at h
  · next hc =>
    injection h with h
    exact ⟨fun e => hc (.inl e), by rw [← h, Int.natAbs_tmod]⟩

theorem nf_gcdLoop : ∀ (j : Nat) (high low : Int), low.natAbs < 2 ^ j → NF (Math.gcdLoop (2 * j + 1) high low) := by
  intro j
  induction j with
  | zero =>
    intro high low h
    rw [Math.gcdLoop]
    refine nf_bind (nf_imod ..) fun r hr => ?_
    exact absurd (imod_val hr).1 (by omega)
  | succ j ih =>
    intro high low h
    change NF (Math.imod high low >>= fun rem => if rem ≠ 0 then Math.gcdLoop (2 * j + 2) low rem else .ok low)
    refine nf_bind (nf_imod ..) fun r hr => ?_
    obtain ⟨h0, h1⟩ := imod_val hr
    split
    · next hr0 =>
      change NF (Math.imod low r >>= fun rem => if rem ≠ 0 then Math.gcdLoop (2 * j + 1) r rem else .ok r)
      refine nf_bind (nf_imod ..) fun r2 hr2 => ?_
      obtain ⟨-, h2⟩ := imod_val hr2
      have h3 : r.natAbs < low.natAbs := by rw [h1]; exact Nat.mod_lt _ (by omega)
      have h4 := mod_half (a := low.natAbs) (b := r.natAbs) (by omega) h3
      split
      · exact ih _ _ (by rw [Nat.pow_succ] at h; omega)
      · exact ⟨by simp⟩
    · exact ⟨by simp⟩

theorem nf_revLoop : ∀ (j t r : Nat), t < 10 ^ j → NF (Math.revLoop (j + 1) t r) := by
  intro j
  induction j with
  | zero => intro t r h; rw [Math.revLoop.eq_2, if_neg (by omega)]; exact ⟨by simp⟩
  | succ j ih =>
    intro t r h
    rw [Math.revLoop.eq_2]
    split
    · exact ih _ _ (by rw [Nat.pow_succ] at h; omega)
    · exact ⟨by simp⟩

/-! ### C123 -/

theorem canFind_steady (s : Arr) (z : Mem) : Steady (fun k => Str.canFind k s z) :=
  Steady.bind (.const (strlen z)) fun n => Steady.bind (.const (enforce (n ≤ s.len))) fun _ => countLoop_steady _ _ _ _ _

theorem nf_canFind {s : Arr} {z : Mem} (hz : strlen z ≠ .ok 0) : NF (Str.canFind (s.mem.length + 1) s z) := by
  refine nf_bind (nf_strlen z) fun n hn => nf_bind (nf_enforce _) fun _ _ => nf_countLoop hn ?_ _ _ _ (by omega)
  rcases Nat.eq_zero_or_pos n with rfl | h
  · exact absurd hn hz
  · exact h

/-- **C123** (partial: not the empty text, see `C123_exactly`.) `vt_str_can_find` ends for every memory behind the string and every text to find but the empty one. -/
theorem C123_can_find_partial (s : Arr) {z : Mem} (hz : strlen z ≠ .ok 0) : EndsBy (s.mem.length + 1) (fun k => Str.canFind k s z) :=
  (canFind_steady s z).endsBy (nf_canFind hz).ne

theorem split_steady (E : Env) (s : Arr) (z : Mem) : Steady (fun k => Str.split E k s z) := by
  refine Steady.bind (canFind_steady s z) fun n => ?_
  by_cases h : n = 0
  · simp only [h, if_true]
    exact Steady.const _
  · simp only [h, if_false]
    exact Steady.bind (.const (strlen z)) fun l => Steady.bind (splitLoop_steady _ _ _ _ _ _) fun _ => .const _

theorem nf_split {E : Env} {s : Arr} {z : Mem} (hz : strlen z ≠ .ok 0) : NF (Str.split E (s.mem.length + 1) s z) := by
  refine nf_bind (nf_canFind hz) fun c _ => ?_
  split
  · exact ⟨by simp⟩
  · refine nf_bind (nf_strlen z) fun n hn => nf_bind (nf_splitLoop hn ?_ _ _ _ (by omega)) fun _ _ => ⟨by simp⟩
    rcases Nat.eq_zero_or_pos n with rfl | h
    · exact absurd hn hz
    · exact h

/-- **C123** (partial: not the empty text.) So does `vt_str_split`. -/
theorem C123_split_partial (E : Env) (s : Arr) {z : Mem} (hz : strlen z ≠ .ok 0) : EndsBy (s.mem.length + 1) (fun k => Str.split E k s z) :=
  (split_steady E s z).endsBy (nf_split hz).ne

/-- **C123** (partial: `remove_last` not for the empty text.) So do `vt_str_remove_last`, `vt_str_replace_last` and `vt_str_pop_get_last`, the latter two also for the empty text. -/
theorem C123_last_partial (E : Env) (s : Arr) (z : Mem) :
    (strlen z ≠ .ok 0 → EndsBy (s.mem.length + 1) (fun k => Str.removeLast E k s z)) ∧
    (∀ r : Mem, EndsBy (s.mem.length + 1) (fun k => Str.replaceLast E k s z r)) ∧
    (∀ sr : Option Arr, EndsBy (s.mem.length + 1) (fun k => Str.popGetLast E k sr s z)) := by
  refine ⟨fun hz => ?_, fun r => ?_, fun sr => ?_⟩
  · refine Steady.endsBy (Steady.bind (.const (strlen z)) fun n => Steady.bind (.const (strstrAt s.mem 0 z)) fun p => ?_) (NF.ne ?_)
    · cases p with
      | none => exact .const _
      | some p => exact Steady.bind (lastInstance_steady _ _ _ _) fun l => .const _
    · refine nf_bind (nf_strlen z) fun n hn => nf_bind (nf_strstrAt ..) fun p _ => ?_
      cases p with
      | none => exact ⟨by simp⟩
      | some p =>
        refine nf_bind (nf_lastInstance hn ?_ _ _ (by omega)) fun l _ => nf_bind (nf_remove ..) fun _ _ => ⟨by simp⟩
        rcases Nat.eq_zero_or_pos n with rfl | h
        · exact absurd hn hz
        · exact h
  · refine Steady.endsBy (Steady.bind (.const (strlen z)) fun n => Steady.bind (.const (strlen r)) fun l => ?_) (NF.ne ?_)
    · by_cases h : n = 0 ∨ l = 0
      · simp only [if_pos h]
        exact .const _
      · simp only [if_neg h]
        refine Steady.bind (.const (strstrAt s.mem 0 z)) fun p => ?_
        cases p with
        | none => exact .const _
        | some p => exact Steady.bind (lastInstance_steady _ _ _ _) fun l => .const _
    · refine nf_bind (nf_strlen z) fun n hn => nf_bind (nf_strlen r) fun l _ => ?_
      split
      · exact ⟨by simp⟩
      · next h0 =>
        refine nf_bind (nf_strstrAt ..) fun p _ => ?_
        cases p with
        | none => exact ⟨by simp⟩
        | some p => exact nf_bind (nf_lastInstance hn (by omega) _ _ (by omega)) fun l _ => nf_replaceAt ..
  · refine Steady.endsBy (Steady.bind (.const (strlen z)) fun n => ?_) (NF.ne ?_)
    · by_cases h : s.len = 0 ∨ n = 0
      · simp only [if_pos h]
        exact .const _
      · simp only [if_neg h]
        refine Steady.bind (.const (strstrAt s.mem 0 z)) fun p => ?_
        cases p with
        | none => exact .const _
        | some p => exact Steady.bind (lastInstance_steady _ _ _ _) fun l => .const _
    · refine nf_bind (nf_strlen z) fun n hn => ?_
      split
      · exact ⟨by simp⟩
      · next h0 =>
        refine nf_bind (nf_strstrAt ..) fun p _ => ?_
        cases p with
        | none => exact ⟨by simp⟩
        | some p =>
          refine nf_bind (nf_lastInstance hn (by omega) _ _ (by omega)) fun l _ => nf_bind (nf_strlenAt ..) fun tl _ => ?_
          dsimp only
          split
          · exact ⟨by simp⟩
          · refine nf_bind (by cases sr <;> [exact nf_createLen ..; exact ⟨by simp⟩]) fun a _ => nf_bind ?_ fun b _ => nf_bind (nf_clear _) fun c _ =>
              nf_bind (nf_appendN ..) fun d _ => nf_bind (nf_remove ..) fun e _ => ⟨by simp⟩
            split
            · exact nf_reserve ..
            · exact ⟨by simp⟩

/-- **C123** (partial: not the empty text.) `vt_str_remove_all` ends after at most as many rounds as the string says it has characters, and one more, whatever is behind the string, unless it
shall remove the empty text. -/
theorem C123_remove_all_partial {s : Arr} (he : s.elsize = 1) (hl : s.len < 2 ^ 64) (hm : s.mem.length < 2 ^ 63) {z : Mem} (hz : strlen z ≠ .ok 0) :
    EndsBy (s.len + 1) (fun k => Str.removeAll k s z) := by
  refine (removeAll_steady z s).endsBy (NF.ne ?_)
  cases hn : strlen z with
  | ok n =>
    refine nf_removeAll hn ?_ _ _ he hl hm (by omega)
    rcases Nat.eq_zero_or_pos n with rfl | h
    · exact absurd hn hz
    · exact h
  | fuel => exact absurd hn (nf_strlen z).ne
  | _ =>
    rw [Str.removeAll]
    refine nf_bind (nf_removeFirst ..) fun r hr => ?_
    unfold Str.removeFirst strstrAt at hr
    unfold strlen at hn
    cases hz : scanZ z with
    | ok t => rw [hz] at hn; simp at hn
    | _ => simp [hz] at hr

theorem stripBy_steady (p : UInt8 → Bool) (s : Arr) : Steady (fun k => Str.stripBy p k s) :=
  Steady.bind (stripFront_steady _ _ _) fun o => Steady.bind (stripBack_steady _ _ _ _) fun _ => .const _

theorem nf_stripBy {p : UInt8 → Bool} {s : Arr} (hm : s.mem.length < 2 ^ 64) : NF (Str.stripBy p (s.mem.length + 1) s) := by
  refine nf_bind (nf_stripFront _ _ (by omega)) fun o _ => nf_bind (nf_stripBack hm _ _ (by omega) (by omega)) fun l _ =>
    nf_bind (nf_vtMemmove ..) fun _ _ => nf_bind (nf_putc ..) fun _ _ => ⟨by simp⟩

/-- **C123** (partial: not the empty set.) The strip functions end whatever is behind the string, `vt_str_strip_c` unless it gets the empty set. -/
theorem C123_strip_partial {s : Arr} (hm : s.mem.length < 2 ^ 64) :
    EndsBy (s.mem.length + 1) (fun k => Str.strip k s) ∧ EndsBy (s.mem.length + 1) (fun k => Str.stripPunct k s) ∧
    (∀ c : Mem, strlen c ≠ .ok 0 → EndsBy (s.mem.length + 1) (fun k => Str.stripC k s c)) := by
  refine ⟨(stripBy_steady _ s).endsBy (nf_stripBy hm).ne, (stripBy_steady _ s).endsBy (nf_stripBy hm).ne, fun c hc => ?_⟩
  cases hz : scanZ c with
  | ok t =>
    have h0 : t ≠ [] := by
      rintro rfl
      exact hc (by simp [strlen, hz])
    simp only [stripC_eq hz h0]
    exact (stripBy_steady _ s).endsBy (nf_stripBy hm).ne
  | fuel => exact absurd hz (nf_scanZ c).ne
  | exit w => exact ⟨.exit w, by simp, fun k _ => by simp [Str.stripC, hz]⟩
  | ub => exact ⟨.ub, by simp, fun k _ => by simp [Str.stripC, hz]⟩

theorem nf_baseLoop (z : Mem) (n : Nat) : ∀ i, NF (Path.baseLoop z n i)
  | 0 => ⟨by simp [Path.baseLoop]⟩
  | i + 1 => by
    rw [Path.baseLoop]
    refine nf_bind (nf_getc ..) fun c _ => ?_
    split
    · exact ⟨by simp⟩
    · exact nf_baseLoop z n i

theorem sepZ_ne : strlen Path.sepZ ≠ .ok 0 := by decide

/-- **C123** `vt_path_basename` ends for every path, whatever the destination. -/
theorem C123_basename (E : Env) (s : Option Arr) (z : Mem) : EndsBy (z.length + 1) (fun k => Path.basename E k s z) := by
  refine Steady.endsBy (Steady.bind (.const (Str.createStatic z)) fun sz => Steady.bind (canFind_steady sz _) fun n => ?_) (NF.ne ?_)
  · exact .const _
  · refine nf_bind (nf_bind (nf_strlen z) fun _ _ => ⟨by simp⟩) fun sz hsz => nf_bind ?_ fun n _ => ?_
    · have : sz.mem = z := by
        unfold Str.createStatic at hsz
        simp only [bind_eq_ok] at hsz
        obtain ⟨_, _, e⟩ := hsz
        injection e with e
        rw [← e]
      have := nf_canFind (s := sz) sepZ_ne
      rwa [‹sz.mem = z›] at this
    · split
      · exact ⟨by simp⟩
      · refine nf_bind (nf_strlen z) fun l _ => nf_bind (by cases s <;> [exact nf_createLen ..; exact ⟨by simp⟩]) fun a _ => nf_bind (nf_baseLoop ..) fun q _ =>
          nf_bind ?_ fun b _ => ?_
        · split
          · exact nf_reserve ..
          · exact ⟨by simp⟩
        · cases q with
          | none => exact ⟨by simp⟩
          | some i => exact nf_bind (nf_clear _) fun _ _ => nf_bind (nf_append ..) fun _ _ => ⟨by simp⟩

theorem vtMemset_length {m m' : Mem} {d : Nat} {b : UInt8} {n : Nat} (h : vtMemset m d b n = .ok m') : m'.length = m.length := by
  unfold vtMemset memset at h
  split at h
  · injection h with h; rw [h]
  · exact writeN_length h

theorem vtMemcpyIn_length {m m' z : Mem} {d n : Nat} (h : vtMemcpyIn m d z n = .ok m') : m'.length = m.length := by
  unfold vtMemcpyIn memcpyIn at h
  split at h
  · injection h with h; rw [h]
  · simp only [bind_eq_ok] at h
    obtain ⟨_, _, h⟩ := h
    exact writeN_length h

theorem create_mem_le {E : Env} {z : Mem} {s : Arr} (h : Str.create E z = .ok s) : s.mem.length ≤ z.length := by
  unfold Str.create Str.createLen Str.setN at h
  simp only [bind_eq_ok] at h
  obtain ⟨l, hl, s1, ⟨_, -, _, -, m0, h0, m1, h1, e1⟩, _, -, _, -, m2, h2, m3, h3, e⟩ := h
  injection e with e
  injection e1 with e1
  rw [← e]
  have a3 := writeN_length h3
  have a2 := vtMemcpyIn_length h2
  have a1 := vtMemset_length h1
  have a0 : m0.length ≤ l + 1 := by
    unfold vtCalloc at h0
    simp only [bind_eq_ok] at h0
    obtain ⟨_, _, h0⟩ := h0
    split at h0
    · injection h0 with h0
      rw [← h0, List.length_replicate]
      unfold wmul wadd
      omega
    · simp at h0
  have hz : l + 1 ≤ z.length := by
    unfold strlen at hl
    simp only [bind_eq_ok] at hl
    obtain ⟨t, ht, hl⟩ := hl
    injection hl with hl
    have := scanZ_length ht
    omega
  have : s1.mem = m1 := by rw [← e1]
  rw [this] at a2
  show m3.length ≤ _
  omega

theorem vtMemmove_ok_inv {m m' : Mem} {d s n : Nat} (h : vtMemmove m d s n = .ok m') : m'.length = m.length ∧ (n = 0 ∨ s + n ≤ m.length) := by
  unfold vtMemmove at h
  split at h
  · next h0 => injection h with h; exact ⟨by rw [h], .inl h0⟩
  · unfold memmove at h
    simp only [bind_eq_ok] at h
    obtain ⟨bs, hb, hw⟩ := h
    refine ⟨writeN_length hw, .inr ?_⟩
    unfold readN at hb
    split at hb
    · assumption
    · simp at hb

theorem putc_inv {m m' : Mem} {i : Nat} {c : UInt8} (h : putc m i c = .ok m') : m'.length = m.length ∧ i < m.length ∧ m'[i]? = some (some c) := by
  refine ⟨writeN_length h, ?_⟩
  unfold putc writeN at h
  split at h
  · next hl =>
    injection h with h
    simp only [List.length_singleton] at hl
    refine ⟨by omega, ?_⟩
    rw [← h, List.append_assoc, List.getElem?_append_right (by simp)]
    simp [List.length_take, Nat.min_eq_left (show i ≤ m.length by omega)]
  · simp at h

/-- A string object as other code may have left it: any memory of a possible size, any length. -/
structure AnyStr (s : Arr) : Prop where
  es : s.elsize = 1
  len : s.len < 2 ^ 64
  mem : s.mem.length < 2 ^ 63

theorem grow_inv {E : Env} {s s' : Arr} {n : Nat} (hs : AnyStr s) (h : Str.grow E s n = .ok s') : AnyStr s' ∧ s'.len = s.len := by
  unfold Str.grow at h
  split at h
  · unfold Str.reserve at h
    simp only [bind_eq_ok] at h
    obtain ⟨_, -, _, -, m, hm, m', hp, e⟩ := h
    injection e with e
    rw [← e]
    refine ⟨⟨hs.es, hs.len, ?_⟩, rfl⟩
    show m'.length < _
    rw [(putc_inv hp).1]
    unfold vtRealloc at hm
    simp only [bind_eq_ok] at hm
    obtain ⟨_, -, hm⟩ := hm
    split at hm
    · simp at hm
    · split at hm
      · next ha =>
        injection hm with hm
        have := E.lim _ ha
        rw [← hm, List.length_append, List.length_take, List.length_replicate]
        omega
      · simp at hm
  · injection h with h
    rw [← h]
    exact ⟨hs, rfl⟩

theorem remove_inv {E : Env} {s s' : Arr} {i n : Nat} (hs : AnyStr s) (hin : i + n < s.mem.length) (h : Str.remove E s i n = .ok s') :
    AnyStr s' ∧ i ≤ s.len ∧ s'.len = (if i + n ≤ s.len then s.len - n else i) := by
  have hm := hs.mem
  have hl := hs.len
  unfold Str.remove at h
  simp only [bind_eq_ok, hs.es] at h
  obtain ⟨_, -, _, -, m1, h1, m2, h2, e⟩ := h
  obtain ⟨b1, b2⟩ := vtMemmove_ok_inv h1
  obtain ⟨p1, p2, -⟩ := putc_inv h2
  injection e with e
  have key : i ≤ s.len ∧ wsub s.len (if n > wsub s.len i then wsub s.len i else n) = (if i + n ≤ s.len then s.len - n else i) := by
    clear e h1 h2 p1 p2
    by_cases c1 : i ≤ s.len
    · refine ⟨c1, ?_⟩
      rw [wsub_eq c1 hl] at b2 ⊢
      split
      · rw [if_neg (by omega), wsub_eq (by omega) hl]
        omega
      · rw [if_pos (by omega), wsub_eq (by omega) hl]
    · exfalso
      have e1 : wsub s.len i = 2 ^ 64 + s.len - i := by unfold wsub; omega
      rw [e1, if_neg (by omega)] at b2
      have e2 : wadd i n = i + n := wadd_eq (by omega)
      have e3 : wsub s.len (i + n) = 2 ^ 64 + s.len - (i + n) := by unfold wsub; omega
      rw [e2, e3, wmul_eq (by omega), wmul_eq (by omega)] at b2
      omega
  rw [← e]
  refine ⟨⟨rfl, ?_, ?_⟩, key.1, key.2⟩
  · show wsub _ _ < _
    exact Nat.mod_lt _ (by decide)
  · show m2.length < _
    rw [p1, b1]; exact hm

theorem append_inv {E : Env} {s s' : Arr} {z : Mem} {r : Nat} (hs : AnyStr s) (hr : strlen z = .ok r) (hrl : r < 2 ^ 63) (hl : s.len < 2 ^ 63)
    (h : Str.append E s z = .ok s') : AnyStr s' ∧ s'.len = s.len + r ∧ s'.mem[s.len + r]? = some (some 0) := by
  unfold Str.append Str.appendN at h
  rw [hr, bind_ok] at h
  simp only [bind_eq_ok] at h
  obtain ⟨_, -, s1, h1, m1, h2, m2, h3, e⟩ := h
  obtain ⟨g1, g2⟩ := grow_inv hs h1
  have l1 := vtMemcpyIn_length h2
  obtain ⟨p1, p2, p3⟩ := putc_inv h3
  have e1 : wadd s1.len r = s.len + r := by rw [g2]; exact wadd_eq (by omega)
  rw [e1] at e p3
  injection e with e
  rw [← e]
  exact ⟨⟨g1.es, by show s.len + r < _; omega, by show m2.length < _; rw [p1, l1]; exact g1.mem⟩, rfl, p3⟩

theorem insert_inv {E : Env} {s s' : Arr} {z : Mem} {r i : Nat} (hs : AnyStr s) (hr : strlen z = .ok r) (hrl : r < 2 ^ 63) (hl : s.len < 2 ^ 63)
    (h : Str.insert E s z i = .ok s') : AnyStr s' ∧ s'.len = s.len + r := by
  unfold Str.insert at h
  simp only [hr, bind_ok, bind_eq_ok] at h
  obtain ⟨_, -, s1, h1, m0, h0, m1, h2, m2, h3, e⟩ := h
  obtain ⟨g1, g2⟩ := grow_inv hs h1
  have l0 := (vtMemmove_ok_inv h0).1
  have l1 := vtMemcpyIn_length h2
  obtain ⟨p1, p2, p3⟩ := putc_inv h3
  have e1 : wadd s1.len r = s.len + r := by rw [g2]; exact wadd_eq (by omega)
  rw [e1] at e
  injection e with e
  rw [← e]
  exact ⟨⟨g1.es, by show s.len + r < _; omega, by show m2.length < _; rw [p1, l1, l0]; exact g1.mem⟩, rfl⟩

theorem strstrAt_nul {m z : Mem} {p n : Nat} (h : m[p]? = some (some 0)) (hn : strlen z = .ok n) (h0 : 0 < n) : strstrAt m p z = .ok none := by
  obtain ⟨hp, e⟩ := List.getElem?_eq_some_iff.1 h
  unfold strlen at hn
  simp only [bind_eq_ok] at hn
  obtain ⟨t, ht, hn⟩ := hn
  injection hn with hn
  have hd : m.drop p = some 0 :: m.drop (p + 1) := by rw [List.drop_eq_getElem_cons hp, e]
  have : t ≠ [] := by rintro rfl; simp at hn; omega
  simp [strstrAt, cstrAt, hp, hd, scanZ, ht, findSub, this]

theorem nf_replaceLoop_same {E : Env} {sub rsub : Mem} {n : Nat} (hn : strlen sub = .ok n) (h0 : 0 < n) :
    ∀ (k : Nat) (s : Arr) (p : Nat), s.mem.length - p < k → NF (Str.replaceLoop E sub rsub n n k s p) := by
  intro k
  induction k with
  | zero => intro s p h; omega
  | succ k ih =>
    intro s p h
    rw [Str.replaceLoop]
    refine nf_bind (nf_strstrAt ..) fun q hq => ?_
    cases q with
    | none => exact ⟨by simp⟩
    | some i =>
      have hb := strstrAt_bounds hn hq
      refine nf_bind (nf_replaceAt ..) fun s' hs' => ih _ _ ?_
      unfold Str.replaceAt at hs'
      rw [if_pos rfl] at hs'
      simp only [bind_eq_ok] at hs'
      obtain ⟨m, hm, e⟩ := hs'
      injection e with e
      have := vtMemcpyIn_length hm
      rw [← e]
      show m.length - _ < _
      omega

theorem nf_replaceLoop_other {E : Env} {sub rsub : Mem} {n r : Nat} (hn : strlen sub = .ok n) (h0 : 0 < n) (hr : strlen rsub = .ok r) (hrl : r < 2 ^ 63) (hd : n ≠ r) :
    ∀ (k : Nat) (s : Arr) (p : Nat), AnyStr s → s.len - p + 2 ≤ k → NF (Str.replaceLoop E sub rsub n r k s p) := by
  intro k
  induction k with
  | zero => intro s p _ h; omega
  | succ k ih =>
    intro s p hs h
    rw [Str.replaceLoop]
    refine nf_bind (nf_strstrAt ..) fun q hq => ?_
    cases q with
    | none => exact ⟨by simp⟩
    | some i =>
      have hb := strstrAt_bounds hn hq
      have hm := hs.mem
      refine nf_bind (nf_replaceAt ..) fun s' hs' => ?_
      unfold Str.replaceAt at hs'
      rw [if_neg hd] at hs'
      simp only [bind_eq_ok] at hs'
      obtain ⟨s1, h1, h2⟩ := hs'
      obtain ⟨a1, l1, l2⟩ := remove_inv hs hb.2 h1
      have hl1 : s1.len < s.mem.length := by
        have := h1
        unfold Str.remove at this
        simp only [bind_eq_ok, hs.es] at this
        obtain ⟨_, -, _, -, m1, g1, m2, g2, e⟩ := this
        obtain ⟨p1, p2, -⟩ := putc_inv g2
        injection e with e
        rw [← e]
        show wsub _ _ < _
        rw [← (vtMemmove_ok_inv g1).1]
        exact p2
      by_cases c : i + n ≤ s.len
      · rw [if_pos c] at l2
        have key : AnyStr s' ∧ s'.len = s1.len + r := by
          split at h2
          · exact insert_inv a1 hr hrl (by omega) h2
          · have := append_inv a1 hr hrl (by omega) h2
            exact ⟨this.1, this.2.1⟩
        exact ih _ _ key.1 (by omega)
      · rw [if_neg c] at l2
        rw [if_neg (by omega)] at h2
        obtain ⟨-, -, e⟩ := append_inv a1 hr hrl (by omega) h2
        rw [l2] at e
        obtain ⟨k, rfl⟩ : ∃ j, k = j + 1 := ⟨k - 1, by omega⟩
        rw [Str.replaceLoop, strstrAt_nul e hn h0]
        exact ⟨by simp⟩

/-- **C123** `vt_str_replace` ends for all texts, also where the replacement contains what is replaced, and whatever is behind the string. -/
theorem C123_replace {E : Env} {s : Arr} (he : s.elsize = 1) (hl : s.len < 2 ^ 64) (hm : s.mem.length < 2 ^ 63) (sub : Mem) {rsub : Mem} (hr : rsub.length < 2 ^ 63) :
    EndsBy (s.len + s.mem.length + 2) (fun k => Str.replace E k s sub rsub) := by
  refine Steady.endsBy (Steady.bind (.const (strlen sub)) fun n => Steady.bind (.const (strlen rsub)) fun l => ?_) (NF.ne ?_)
  · by_cases h : n = 0 ∨ l = 0
    · simp only [if_pos h]
      exact .const _
    · simp only [if_neg h]
      exact replaceLoop_steady _ _ _ _ _ _ _
  · refine nf_bind (nf_strlen sub) fun n hn => nf_bind (nf_strlen rsub) fun l hl' => ?_
    split
    · exact ⟨by simp⟩
    · next h0 =>
      have hll : l < rsub.length := by
        unfold strlen at hl'
        simp only [bind_eq_ok] at hl'
        obtain ⟨t, ht, e⟩ := hl'
        injection e with e
        have := scanZ_length ht
        omega
      by_cases c : n = l
      · subst c
        exact nf_replaceLoop_same hn (by omega) _ _ _ (by omega)
      · exact nf_replaceLoop_other hn (by omega) hl' (by omega) c _ _ _ ⟨he, hl, hm⟩ (by omega)

/-- A damaged string: it says it has two characters, its memory shows five. The replacements stop at the length. -/
example : (Str.replace exE 9 { len := 2, cap := 7, elsize := 1, slider := 0, isView := false, mem := [some 97, some 97, some 97, some 97, some 97, some 0, some 0, some 0] }
    (zstr [97]) (zstr [98, 98])).mapOk Str.z = .ok (.ok [98, 98, 98, 98]) := by decide +kernel
theorem nf_mkdirLoop (E : Env) : ∀ (l : List Arr) (s : Arr) (w : Fs.World), NF (Path.mkdirLoop E l s w)
  | [], _, _ => ⟨by simp [Path.mkdirLoop]⟩
  | d :: ds, s, w => by
    rw [Path.mkdirLoop]
    exact nf_bind (nf_append ..) fun _ _ => nf_bind (nf_append ..) fun _ _ => nf_bind (nf_scanZ _) fun _ _ => nf_mkdirLoop E ds _ _

/-- **C123** `vt_path_mkdir_parents` ends in every file system and for every path. -/
theorem C123_mkdir_parents (E : Env) (w : Fs.World) (z : Mem) : EndsBy (z.length + 1) (fun k => Path.mkdirParents E k w z) := by
  refine Steady.endsBy (Steady.bind (.const (scanZ z)) fun t => ?_) (NF.ne ?_)
  · by_cases h : (Path.exists_ w t) = true
    · simp only [h, if_true]
      exact .const _
    · simp only [h, if_false]
      refine Steady.bind (.const (Str.create E z)) fun s => Steady.bind (.const (Str.createCapacity E (wadd s.len 1))) fun f => Steady.bind (.const (getc z 0)) fun c =>
        Steady.bind (.const (if c = 47 then Str.append E f Path.sepZ else .ok f)) fun f' => Steady.bind (split_steady E s _) fun dl => ?_
      cases dl with
      | none => exact .const _
      | some l => exact .const _
  · refine nf_bind (nf_scanZ z) fun t _ => ?_
    split
    · exact ⟨by simp⟩
    · refine nf_bind (nf_create E z) fun s hs => nf_bind (nf_createCapacity ..) fun f _ => nf_bind (nf_getc ..) fun c _ => nf_bind ?_ fun f' _ => nf_bind ?_ fun dl _ => ?_
      · split
        · exact nf_append ..
        · exact ⟨by simp⟩
      · have hl := create_mem_le hs
        obtain ⟨r, hr, h⟩ := C123_split_partial E s (z := Path.sepZ) sepZ_ne
        have h' : Str.split E (z.length + 1) s Path.sepZ = r := h _ (by omega)
        exact ⟨by rw [h']; exact hr⟩
      · cases dl with
        | none => exact ⟨by simp⟩
        | some l => exact nf_bind (nf_mkdirLoop ..) fun _ _ => ⟨by simp⟩

theorem recurseLoop_steady (E : Env) (w : Fs.World) (ign : Bool) (z : Mem) {rec rec' : List Arr → Mem → Out (Option (List Arr))}
    (h : ∀ pl m, rec pl m ≠ .fuel → rec' pl m = rec pl m) :
    ∀ (ns : List Fs.Name) (st : Arr) (pl : List Arr), Path.recurseLoop E w ign z rec ns st pl ≠ .fuel →
      Path.recurseLoop E w ign z rec' ns st pl = Path.recurseLoop E w ign z rec ns st pl := by
  have bindStep : ∀ {α β : Type} {x : Out α} {f g : α → Out β}, (x >>= f) ≠ .fuel → (∀ a, x = .ok a → f a ≠ .fuel → g a = f a) → (x >>= g) = (x >>= f) := by
    intro α β x f g hx hfg
    cases x with
    | ok a => exact hfg a rfl hx
    | _ => rfl
  intro ns
  induction ns with
  | nil => intro st pl _; rfl
  | cons n ns ih =>
    intro st pl hk
    rw [Path.recurseLoop] at hk
    rw [Path.recurseLoop, Path.recurseLoop]
    refine bindStep hk fun b _ hk => ?_
    by_cases hb : b = true
    · rw [if_pos hb] at hk ⊢
      rw [if_pos hb]
      exact ih _ _ hk
    · rw [if_neg hb] at hk ⊢
      rw [if_neg hb]
      refine bindStep hk fun s1 _ hk => bindStep hk fun s2 _ hk => bindStep hk fun s3 _ hk => bindStep hk fun t _ hk => ?_
      have hr : (if Path.isDir w t = true then rec' pl s3.mem else .ok (some pl)) = (if Path.isDir w t = true then rec pl s3.mem else .ok (some pl)) := by
        split
        · next hd =>
          rw [if_pos hd] at hk
          refine h _ _ fun e => ?_
          rw [e] at hk
          exact hk rfl
        · rfl
      rw [hr]
      refine bindStep hk fun r _ hk => ?_
      cases r with
      | none => rfl
      | some l => exact bindStep hk fun d _ hk => bindStep hk fun s4 _ hk => ih _ _ hk

theorem dirListRecurse_steady (E : Env) (w : Fs.World) (ign : Bool) : ∀ (pl : List Arr) (z : Mem), Steady (fun k => Path.dirListRecurse E w ign k pl z) := by
  intro pl z k
  induction k generalizing pl z with
  | zero => intro h; exact absurd rfl h
  | succ k ih =>
    have st : ∀ j, Path.dirListRecurse E w ign (j + 1) pl z = (scanZ z >>= fun t => if (!Path.exists_ w t) = true then .ok none else
        match Fs.readdir w t with
        | none => .ok none
        | some ns => Str.createCapacity E defaultInit >>= fun st =>
          Path.recurseLoop E w ign z (Path.dirListRecurse E w ign j) ns st pl >>= fun r => .ok (some r)) := fun _ => rfl
    intro hk
    dsimp only at hk ⊢ ih
    rw [st] at hk
    rw [st, st]
    cases e : scanZ z with
    | ok t =>
      rw [e, bind_ok] at hk
      rw [bind_ok, bind_ok]
      by_cases hx : (!Path.exists_ w t) = true
      · rw [if_pos hx, if_pos hx]
      · rw [if_neg hx] at hk ⊢
        rw [if_neg hx]
        cases hd : Fs.readdir w t with
        | none => rfl
        | some ns =>
          rw [hd] at hk
          dsimp only at hk ⊢
          cases e2 : Str.createCapacity E defaultInit with
          | ok s =>
            rw [e2, bind_ok] at hk
            rw [bind_ok, bind_ok, recurseLoop_steady E w ign z (fun pl m => ih pl m) ns s pl fun e => hk (by rw [e]; rfl)]
          | _ => rfl
    | _ => rfl

/-- **C123** `vt_path_dir_list_recurse` and `vt_path_rmdir_recurse` end in every file system, also where links lead back to a directory above: the path
texts become longer with each level, and the system refuses those of 4096 characters. -/
theorem C123_subtree {E : Env} {w : Fs.World} (hw : Fs.Wf w) {z : Mem} {t : Text} (hz : CStr z t) (ign : Bool) (pl : List Arr) :
    EndsBy 4096 (fun k => Path.dirListRecurse E w ign k pl z) ∧ EndsBy 4096 (fun k => Path.rmdirRecurse E k w z) := by
  constructor
  · refine (dirListRecurse_steady E w ign pl z).endsBy ?_
    rcases C62_any_file_system (E := E) hw hz ign pl with ⟨a, e, -⟩ | ⟨e, -⟩ <;>
    · change Path.dirListRecurse E w ign Fs.maxPath pl z ≠ _
      rw [e]; simp
  · refine Steady.endsBy (Steady.bind (.const (scanZ z)) fun u => ?_) ?_
    · by_cases h : (!Path.exists_ w u) = true
      · simp only [h, if_true]
        exact .const _
      · simp only [h]
        refine Steady.bind (dirListRecurse_steady E w false [] z) fun dl => .const _
    · rcases C63_any_file_system (E := E) hw hz with ⟨a, e, -⟩ | ⟨e, -⟩ <;>
      · change Path.rmdirRecurse E Fs.maxPath w z ≠ _
        rw [e]; simp

/-- A directory `/s` with a link back to itself: listing it goes down 41 levels, then the system refuses to follow more links. -/
example : (∃ w : Fs.World, Fs.Wf w ∧ Fs.kind w [[115], [108]] = some (.link [47, 115]) ∧ EndsBy 4096 (fun k => Path.dirListRecurse exE w false k [] (zstr [47, 115]))) :=
  ⟨exLoop, exLoop_wf, rfl, (C123_subtree (t := [47, 115]) exLoop_wf ⟨by decide, by decide⟩ false []).1⟩

/-- **C123** `vt_math_gcd` and `vt_math_lcm` end within 129 rounds for all numbers (where they are defined or not), and `vt_math_is_palindrome` within 21. -/
theorem C123_numbers {a b : Int} (ha : Math.InI64 a) (hb : Math.InI64 b) {n : Nat} (hn : n < 2 ^ 64) :
    EndsBy 129 (fun k => Math.gcd k a b) ∧ EndsBy 129 (fun k => Math.lcm k a b) ∧ EndsBy 21 (fun k => Math.isPalindrome k n) := by
  have g : NF (Math.gcd 129 a b) := by
    unfold Math.gcd
    refine nf_gcdLoop 64 _ _ ?_
    unfold Math.InI64 at ha hb
    split <;> omega
  have gs : Steady (fun k => Math.gcd k a b) := gcdLoop_steady _ _
  refine ⟨gs.endsBy g.ne, (Steady.bind gs fun _ => .const _).endsBy (nf_bind g fun _ _ => nf_bind (nf_idiv ..) fun _ _ => nf_imul ..).ne, ?_⟩
  exact (Steady.bind (revLoop_steady _ _) fun _ => .const _).endsBy (nf_bind (nf_revLoop 20 _ _ (by omega)) fun _ _ => ⟨by simp⟩).ne

theorem strstrAt_empty {m z : Mem} {t : Text} (h : scanZ m = .ok t) (hz : scanZ z = .ok []) : strstrAt m 0 z = .ok (some 0) := by
  rw [strstrAt_ok h hz (Nat.zero_le _)]
  cases t <;> simp [findSub]

/-- **C123** With the empty text (or set) these five calls run forever on every string; nothing checks for it. -/
theorem C123_empty_never_ends {E : Env} {v : Arr} {t : Text} (h : IsStr v t) {z : Mem} (hz : CStr z []) :
    NeverEnds (fun k => Str.canFind k v z) ∧ NeverEnds (fun k => Str.split E k v z) ∧ NeverEnds (fun k => Str.removeLast E k v z) ∧
    NeverEnds (fun k => Str.removeAll k v z) ∧ NeverEnds (fun k => Str.stripC k v z) := by
  have hn : strlen z = .ok 0 := by simp [strlen, hz.text]
  have hs := strstrAt_empty h.text hz.text
  have c : NeverEnds (fun k => Str.canFind k v z) := by
    have : ∀ k c, Str.countLoop v.mem z 0 k 0 c = .fuel := by
      intro k
      induction k with
      | zero => intro c; rfl
      | succ k ih => intro c; rw [Str.countLoop, hs, bind_ok]; exact ih _
    intro k
    simp [Str.canFind, hn, this]
  refine ⟨c, fun k => ?_, fun k => ?_, C21_remove_all_empty_diverges h hz, C26_empty_set_never_ends h hz⟩
  · have := c k
    dsimp only at this
    simp [Str.split, this]
  · have : ∀ k, Str.lastInstance v.mem z 0 k 0 = .fuel := by
      intro k
      induction k with
      | zero => rfl
      | succ k ih => rw [Str.lastInstance, Nat.zero_add, hs, bind_ok]; exact ih
    simp [Str.removeLast, hn, hs, this]

/-- **C123** Exactly: of the calls on a string and a text, these five run forever if the text is empty and end if it is not. -/
theorem C123_exactly {E : Env} {v : Arr} {t zs : Text} (h : IsStr v t) {z : Mem} (hz : CStr z zs) :
    (NeverEnds (fun k => Str.canFind k v z) ↔ zs = []) ∧ (NeverEnds (fun k => Str.split E k v z) ↔ zs = []) ∧
    (NeverEnds (fun k => Str.removeLast E k v z) ↔ zs = []) ∧ (NeverEnds (fun k => Str.removeAll k v z) ↔ zs = []) ∧
    (NeverEnds (fun k => Str.stripC k v z) ↔ zs = []) := by
  by_cases h0 : zs = []
  · subst h0
    obtain ⟨h1, h2, h3, h4, h5⟩ := C123_empty_never_ends (E := E) h hz
    exact ⟨iff_of_true h1 rfl, iff_of_true h2 rfl, iff_of_true h3 rfl, iff_of_true h4 rfl, iff_of_true h5 rfl⟩
  · have hn : strlen z ≠ .ok 0 := by
      simp [strlen, hz.text, h0]
    have hl := h.lim
    have hs := h.size
    have hle := h.le
    have hlen := h.len
    exact ⟨iff_of_false (C123_not_both (C123_can_find_partial v hn)) h0, iff_of_false (C123_not_both (C123_split_partial E v hn)) h0,
      iff_of_false (C123_not_both ((C123_last_partial E v z).1 hn)) h0,
      iff_of_false (C123_not_both (C123_remove_all_partial h.es (by omega) (by omega) hn)) h0,
      iff_of_false (C123_not_both ((C123_strip_partial (by omega)).2.2 z hn)) h0⟩

/-- The bound for `remove_all` is reached: four rounds for three times "ab", the last finding nothing. -/
example : Str.removeAll 3 (strObj [97, 98, 97, 98, 97, 98] 0) (zstr [97, 98]) = .fuel ∧
    (Str.removeAll 4 (strObj [97, 98, 97, 98, 97, 98] 0) (zstr [97, 98])).mapOk Str.z = .ok (.ok []) := by decide +kernel

example : Math.gcd 129 1071 462 = .ok 21 ∧ Math.gcd 129 5 0 = .ub := by decide +kernel

/-- A string whose memory has been damaged (no terminator): finding in it is undefined, but not endless. -/
example : Str.canFind 5 { len := 2, cap := 3, elsize := 1, slider := 0, isView := false, mem := [some 97, some 97, some 97, some 97] } (zstr [97]) = .ub := by decide +kernel

end Vita
