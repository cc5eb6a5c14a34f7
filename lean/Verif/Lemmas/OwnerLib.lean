import Verif.Spec.OwnerLib
import Verif.Props.Plist
/-!
# Lemmas for programs over numbered containers
-/

namespace Vita
open Out Mal Own

seal wadd wsub wmul

/-! ### Programs with control flow, contents only -/

/-- A program on the contents of its containers alone, without any heap. -/
def Own.Prog.plain (E : Env) : Prog α → Contents → Out (Contents × α)
  | .out o, c => do
    let a ← o
    .ok (c, a)
  | .cmd f k, c => do
    let c ← plainStep E c f
    k.plain E c
  | .look i k, c => do
    let o ← c.live i
    (k (o.1.kind, o.2)).plain E c
  | .next k, c => (k c.length).plain E c

/-- `Follows` for code with a result. -/
def FollowsP (E : Env) (base : List (Nat × Nat)) (r : Out (St × α)) (c : Out (Contents × α)) : Prop :=
  (r = .exit .alloc ∧ TableRefused E) ∨
  match c with
  | .ok (c, a) => ∃ s, r = .ok (s, a) ∧ contents s = c ∧ GoodSt s base
  | .exit w => r = .exit w
  | .ub => r = .ub
  | .fuel => r = .fuel

theorem prog_follows {E : Env} {A : Allocator} {base : List (Nat × Nat)} : ∀ (p : Prog α) (s : St), GoodSt s base →
    FollowsP E base (p.onHeap E A s) (p.plain E (contents s))
  | .out o, s, h => by
    cases o with
    | ok a => exact Or.inr ⟨s, rfl, rfl, h⟩
    | exit w => exact Or.inr rfl
    | ub => exact Or.inr rfl
    | fuel => exact Or.inr rfl
  | .cmd f k, s, h => by
    show FollowsP E base (step E A s f >>= fun s => k.onHeap E A s) (plainStep E (contents s) f >>= fun c => k.plain E c)
    rcases step_follows (E := E) (A := A) h f with ⟨h1, ht⟩ | h1
    · exact Or.inl ⟨by rw [h1]; rfl, ht⟩
    · cases hc : plainStep E (contents s) f with
      | ok c =>
        rw [hc] at h1
        obtain ⟨s', e, e', hg⟩ := h1
        rw [e, ← e']
        exact prog_follows k s' hg
      | exit w => rw [hc] at h1; rw [show step E A s f = .exit w from h1]; exact Or.inr rfl
      | ub => rw [hc] at h1; rw [show step E A s f = .ub from h1]; exact Or.inr rfl
      | fuel => rw [hc] at h1; rw [show step E A s f = .fuel from h1]; exact Or.inr rfl
  | .look i k, s, h => by
    show FollowsP E base (s.live i >>= fun o => (k (o.kind, o.arr)).onHeap E A s) ((contents s).live i >>= fun o => (k (o.1.kind, o.2)).plain E (contents s))
    rcases live_follows (s := s) (i := i) with ⟨o, -, e1, e2⟩ | ⟨e1, e2⟩
    · rw [e1, e2]
      exact prog_follows (k (o.kind, o.arr)) s h
    · rw [e1, e2]; exact Or.inr rfl
  | .next k, s, h => by
    have hl : (contents s).length = s.objs.length := by simp [contents]
    show FollowsP E base ((k s.objs.length).onHeap E A s) ((k (contents s).length).plain E (contents s))
    rw [hl]
    exact prog_follows (k s.objs.length) s h

/-! ### Reasoning about the contents -/

theorem plain_bind {E : Env} {f : α → Prog β} : ∀ (p : Prog α) (c : Contents),
    (p >>= f).plain E c = p.plain E c >>= fun r => (f r.2).plain E r.1
  | .out o, c => by cases o <;> rfl
  | .cmd g k, c => by
    show (plainStep E c g >>= fun c => (k.bind f).plain E c) = ((plainStep E c g >>= fun c => k.plain E c) >>= fun r => (f r.2).plain E r.1)
    rw [bind_assoc]
    congr 1
    funext c'
    exact plain_bind k c'
  | .look i k, c => by
    show (c.live i >>= fun o => ((k (o.1.kind, o.2)).bind f).plain E c) = ((c.live i >>= fun o => (k (o.1.kind, o.2)).plain E c) >>= fun r => (f r.2).plain E r.1)
    rw [bind_assoc]
    congr 1
    funext o
    exact plain_bind (k (o.1.kind, o.2)) c
  | .next k, c => plain_bind (k c.length) c

/-- The code ends like `o`, or memory is refused; the final contents and result are as `Q` says. -/
def EndsLike (r : Out (Contents × α)) (o : Out β) (Q : Contents → α → β → Prop) : Prop :=
  r = .exit .alloc ∨
  match o with
  | .ok b => ∃ c a, r = .ok (c, a) ∧ Q c a b
  | .exit w => r = .exit w
  | .ub => r = .ub
  | .fuel => r = .fuel

theorem EndsLike.bind {E : Env} {p : Prog α} {f : α → Prog γ} {c : Contents} {o : Out β} {g : β → Out δ} {Q : Contents → α → β → Prop}
    {R : Contents → γ → δ → Prop} (h : EndsLike (p.plain E c) o Q) (hk : ∀ c a b, o = .ok b → Q c a b → EndsLike ((f a).plain E c) (g b) R) :
    EndsLike ((p >>= f).plain E c) (o >>= g) R := by
  rw [plain_bind]
  rcases h with h | h
  · left; rw [h]; rfl
  · cases o with
    | ok b =>
      obtain ⟨c', a, e, hq⟩ := h
      rw [e]
      exact hk c' a b rfl hq
    | exit w => rw [show p.plain E c = .exit w from h]; exact Or.inr rfl
    | ub => rw [show p.plain E c = .ub from h]; exact Or.inr rfl
    | fuel => rw [show p.plain E c = .fuel from h]; exact Or.inr rfl

/-- Code without a counterpart in `o`. -/
theorem EndsLike.seq {E : Env} {p : Prog α} {f : α → Prog γ} {c : Contents} {o : Out δ} {Q : Contents → α → Prop}
    {R : Contents → γ → δ → Prop} (h : EndsLike (p.plain E c) (.ok ()) fun c a _ => Q c a) (hk : ∀ c a, Q c a → EndsLike ((f a).plain E c) o R) :
    EndsLike ((p >>= f).plain E c) o R := by
  rw [plain_bind]
  rcases h with h | ⟨c', a, e, hq⟩
  · left; rw [h]; rfl
  · rw [e]
    exact hk c' a hq

/-- The same computation on both sides. -/
theorem EndsLike.same {E : Env} {f : α → Prog γ} {c : Contents} {o : Out α} {g : α → Out δ} {R : Contents → γ → δ → Prop}
    (hk : ∀ a, o = .ok a → EndsLike ((f a).plain E c) (g a) R) : EndsLike (((Prog.out o : Prog α) >>= f).plain E c) (o >>= g) R := by
  cases o with
  | ok a => exact hk a rfl
  | exit w => exact Or.inr rfl
  | ub => exact Or.inr rfl
  | fuel => exact Or.inr rfl

theorem EndsLike.ok {E : Env} {c : Contents} {a : α} {b : β} {Q : Contents → α → β → Prop} (h : Q c a b) :
    EndsLike ((Prog.out (.ok a) : Prog α).plain E c) (.ok b) Q := Or.inr ⟨c, a, rfl, h⟩

theorem EndsLike.mono {r : Out (Contents × α)} {o : Out β} {Q R : Contents → α → β → Prop} (h : EndsLike r o Q) (hq : ∀ c a b, Q c a b → R c a b) :
    EndsLike r o R := by
  rcases h with h | h
  · exact Or.inl h
  · cases o with
    | ok b => obtain ⟨c, a, e, h⟩ := h; exact Or.inr ⟨c, a, e, hq c a b h⟩
    | exit w => exact Or.inr h
    | ub => exact Or.inr h
    | fuel => exact Or.inr h

/-! Single steps -/

theorem live_some {c : Contents} {i : Nat} {o : Tag × Arr} (h : c[i]? = some (some o)) : c.live i = .ok o := by
  unfold Contents.live; rw [h]

theorem fields_plain {E : Env} {c : Contents} {i : Nat} {k : Tag} {a : Arr} (h : c[i]? = some (some (k, a))) :
    (fields i).plain E c = .ok (c, a) := by
  show (c.live i >>= fun o => Out.ok (c, o.2)) = _
  rw [live_some h, bind_ok]

theorem make_plain {E : Env} {c : Contents} {tr : Bool} {m : Make} :
    (make tr m).plain E c = m.run E >>= fun a => .ok (c ++ [some (⟨m.kind, tr⟩, a)], c.length) := by
  show ((m.run E >>= fun a => Out.ok (c ++ [some (⟨m.kind, tr⟩, a)])) >>= fun c' => Out.ok (c', c.length)) = _
  rw [bind_assoc]; rfl

theorem makeLike_plain {E : Env} {c : Contents} {i : Nat} {m : Make} {o : Tag × Arr} (h : c[i]? = some (some o)) :
    (makeLike i m).plain E c = m.run E >>= fun a => .ok (c ++ [some (⟨m.kind, o.1.tracked⟩, a)], c.length) := by
  show ((c.live i >>= fun o => m.run E >>= fun a => Out.ok (c ++ [some (⟨m.kind, o.1.tracked⟩, a)])) >>= fun c' => Out.ok (c', c.length)) = _
  rw [live_some h, bind_ok, bind_assoc]; rfl

theorem dup_plain {E : Env} {c : Contents} {i : Nat} {a : Arr} (h : c[i]? = some (some (.str tr, a))) :
    (dup i).plain E c = Str.dup E a >>= fun d => .ok (c ++ [some (.str tr, d)], c.length) := by
  show ((c.live i >>= fun o => plainDup E o.1.kind o.2 >>= fun a => Out.ok (c ++ [some (⟨o.1.kind, if o.1.kind = .str then o.1.tracked else false⟩, a)])) >>= fun c' => Out.ok (c', c.length)) = _
  rw [live_some h, bind_ok, bind_assoc]; rfl

theorem call_plain {E : Env} {c : Contents} {i : Nat} {k : Tag} {a : Arr} {f : Call} (h : c[i]? = some (some (k, a))) (hk : f.kind = k.kind) :
    (call i f).plain E c = f.run E a >>= fun b => .ok (c.set i (some (k, b)), ()) := by
  show ((c.live i >>= fun o => if f.kind ≠ o.1.kind then .ub else f.run E o.2 >>= fun b => Out.ok (c.set i (some (o.1, b)))) >>= fun c' => Out.ok (c', ())) = _
  rw [live_some h, bind_ok]
  dsimp only
  rw [if_neg (not_not.2 hk), bind_assoc]; rfl

theorem discard_plain {E : Env} {c : Contents} {i : Nat} {o : Tag × Arr} (h : c[i]? = some (some o)) :
    (discard i).plain E c = .ok (c.set i none, ()) := by
  show ((c.live i >>= fun _ => Out.ok (c.set i none)) >>= fun c' => Out.ok (c', ())) = _
  rw [live_some h]; rfl

/-- A creating function, with its counterpart. -/
theorem EndsLike.make {E : Env} {f : Nat → Prog γ} {c : Contents} {tr : Bool} {m : Make} {g : Arr → Out δ} {R : Contents → γ → δ → Prop}
    (hk : ∀ a, m.run E = .ok a → EndsLike ((f c.length).plain E (c ++ [some (⟨m.kind, tr⟩, a)])) (g a) R) :
    EndsLike ((Own.make tr m >>= f).plain E c) (m.run E >>= g) R := by
  rw [plain_bind, make_plain]
  cases h : m.run E with
  | ok a => exact hk a h
  | exit w => exact Or.inr rfl
  | ub => exact Or.inr rfl
  | fuel => exact Or.inr rfl

theorem EndsLike.makeLike {E : Env} {f : Nat → Prog γ} {c : Contents} {i : Nat} {o : Tag × Arr} {m : Make} {g : Arr → Out δ}
    {R : Contents → γ → δ → Prop} (hi : c[i]? = some (some o))
    (hk : ∀ a, m.run E = .ok a → EndsLike ((f c.length).plain E (c ++ [some (⟨m.kind, o.1.tracked⟩, a)])) (g a) R) :
    EndsLike ((Own.makeLike i m >>= f).plain E c) (m.run E >>= g) R := by
  rw [plain_bind, makeLike_plain hi]
  cases h : m.run E with
  | ok a => exact hk a h
  | exit w => exact Or.inr rfl
  | ub => exact Or.inr rfl
  | fuel => exact Or.inr rfl

theorem EndsLike.dup {E : Env} {f : Nat → Prog γ} {c : Contents} {i : Nat} {a : Arr} {g : Arr → Out δ}
    {R : Contents → γ → δ → Prop} (hi : c[i]? = some (some (.str tr, a)))
    (hk : ∀ d, Str.dup E a = .ok d → EndsLike ((f c.length).plain E (c ++ [some (.str tr, d)])) (g d) R) :
    EndsLike ((Own.dup i >>= f).plain E c) (Str.dup E a >>= g) R := by
  rw [plain_bind, dup_plain hi]
  cases h : Str.dup E a with
  | ok d => exact hk d h
  | exit w => exact Or.inr rfl
  | ub => exact Or.inr rfl
  | fuel => exact Or.inr rfl

theorem EndsLike.call {E : Env} {f : Unit → Prog γ} {c : Contents} {i : Nat} {k : Tag} {a : Arr} {cl : Call} {g : Arr → Out δ}
    {R : Contents → γ → δ → Prop} (hi : c[i]? = some (some (k, a))) (hkd : cl.kind = k.kind)
    (hk : ∀ b, cl.run E a = .ok b → EndsLike ((f ()).plain E (c.set i (some (k, b)))) (g b) R) :
    EndsLike ((Own.call i cl >>= f).plain E c) (cl.run E a >>= g) R := by
  rw [plain_bind, call_plain hi hkd]
  cases h : cl.run E a with
  | ok d => exact hk d h
  | exit w => exact Or.inr rfl
  | ub => exact Or.inr rfl
  | fuel => exact Or.inr rfl

theorem EndsLike.call_last {E : Env} {c : Contents} {i : Nat} {k : Tag} {a : Arr} {cl : Call} (hi : c[i]? = some (some (k, a))) (hkd : cl.kind = k.kind) :
    EndsLike ((Own.call i cl).plain E c) (cl.run E a) fun c' _ b => c' = c.set i (some (k, b)) := by
  rw [call_plain hi hkd]
  cases cl.run E a with
  | ok d => exact Or.inr ⟨_, _, rfl, rfl⟩
  | exit w => exact Or.inr rfl
  | ub => exact Or.inr rfl
  | fuel => exact Or.inr rfl

theorem EndsLike.fields {E : Env} {f : Arr → Prog γ} {c : Contents} {i : Nat} {k : Tag} {a : Arr} {o : Out δ}
    {R : Contents → γ → δ → Prop} (hi : c[i]? = some (some (k, a))) (hk : EndsLike ((f a).plain E c) o R) :
    EndsLike ((Own.fields i >>= f).plain E c) o R := by
  rw [plain_bind, fields_plain hi]; exact hk

theorem EndsLike.discard {E : Env} {f : Unit → Prog γ} {c : Contents} {i : Nat} {x : Tag × Arr} {o : Out δ}
    {R : Contents → γ → δ → Prop} (hi : c[i]? = some (some x)) (hk : EndsLike ((f ()).plain E (c.set i none)) o R) :
    EndsLike ((Own.discard i >>= f).plain E c) o R := by
  rw [plain_bind, discard_plain hi]; exact hk

/-- A list call without a counterpart in `o` that returns or is refused memory. -/
theorem EndsLike.list {E : Env} {f : Unit → Prog γ} {c : Contents} {i : Nat} {k : Tag} {a : Arr} {cl : Call} {o : Out δ}
    {R : Contents → γ → δ → Prop} (hi : c[i]? = some (some (k, a))) (hkd : cl.kind = k.kind)
    (hr : cl.run E a = .exit .alloc ∨ ∃ b, cl.run E a = .ok b ∧ EndsLike ((f ()).plain E (c.set i (some (k, b)))) o R) :
    EndsLike ((Own.call i cl >>= f).plain E c) o R := by
  rw [plain_bind, call_plain hi hkd]
  rcases hr with e | ⟨b, e, h⟩
  · rw [e]; exact Or.inl rfl
  · rw [e]; exact h

/-! ### Lists of pointers to containers -/

theorem ptrTo_eq {n : Nat} (h : n + 1 < 2 ^ 64) : ptrTo n = .out (.ok (ptrOf n)) := by
  unfold ptrTo; rw [if_pos h]; rfl

theorem ptrOf_ne {n : Nat} (h : n + 1 < 2 ^ 64) : ptrOf n ≠ 0 := by
  intro e
  have := congrArg BitVec.toNat e
  unfold ptrOf at this
  rw [BitVec.toNat_ofNat, Nat.mod_eq_of_lt h] at this
  simp at this

theorem target_ptrOf {n : Nat} (h : n + 1 < 2 ^ 64) : target (ptrOf n) = .out (.ok n) := by
  unfold target
  rw [if_neg (ptrOf_ne h)]
  unfold ptrOf
  rw [BitVec.toNat_ofNat, Nat.mod_eq_of_lt h]
  rfl

theorem plPush_any {E : Env} {a : Arr} {l : List Ptr} {cap : Nat} (h : PlHolds a ⟨l, cap⟩) {q : Ptr} (hq : q ≠ 0) :
    Plist.pushBack E a q = .exit .alloc ∨
    ∃ b cap', Plist.pushBack E a q = .ok b ∧ PlHolds b ⟨l ++ [q], cap'⟩ ∧ b.slider = a.slider := by
  rw [plPush_eq E a h.wf q hq h.es]
  obtain ⟨h1, h2⟩ := pushBack_spec (E := E) h.wf (val := ptrBytes q) (by rw [h.es, ptrBytes_length]; exact Nat.le_refl 8)
  have ht : (ptrBytes q).take a.elsize = ptrBytes q := by rw [h.es, ← ptrBytes_length q, List.take_length]
  rw [ht, h.elems, h.abs, h.es] at h1
  have hl : (l.map ptrBytes ++ [ptrBytes q]) = (l ++ [q]).map ptrBytes := by simp
  have h1' : (Vec.pushBack E a (ptrBytes q)).mapOk Arr.abs = (Spec.withRoom E 8 ⟨l, cap⟩ (l ++ [q])).mapOk encState := by
    rw [h1, ← withRoom_enc, hl]
  cases e : Vec.pushBack E a (ptrBytes q) with
  | ok b =>
    right
    obtain ⟨hw, hs⟩ := h2 b e
    rw [e] at h1'
    unfold Spec.withRoom at h1'
    split at h1'
    · injection h1' with h3
      exact ⟨b, _, rfl, ⟨hw, hs.1.trans h.es, h3⟩, hs.2.1⟩
    · split at h1'
      · injection h1' with h3
        exact ⟨b, _, rfl, ⟨hw, hs.1.trans h.es, h3⟩, hs.2.1⟩
      · cases h1'
  | exit w =>
    left
    rw [e] at h1'
    unfold Spec.withRoom at h1'
    split at h1'
    · cases h1'
    · split at h1'
      · cases h1'
      · injection h1' with h3; rw [h3]
  | ub =>
    rw [e] at h1'
    unfold Spec.withRoom at h1'
    repeat' split at h1'
    all_goals cases h1'
  | fuel =>
    rw [e] at h1'
    unfold Spec.withRoom at h1'
    repeat' split at h1'
    all_goals cases h1'

end Vita
