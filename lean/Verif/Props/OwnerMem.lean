import Verif.Model.OwnerMem
import Verif.Props.Owner
/-!
# Property C117: containers in one memory do not disturb each other
-/

namespace Vita
open Out Mal Own

seal wadd wsub wmul

variable {E : Env} {A : Allocator} {S : Sys} {own : List (Bool × Nat × Nat)} {base : List (Nat × Nat)} {σ₀ : Store}

/-! ### Lemmas -/

/-- An address of one of the blocks `own` or `base`. -/
def Elsewhere (own : List (Bool × Nat × Nat)) (base : List (Nat × Nat)) (x : Nat) : Prop := x ∈ own.map (·.2.1) ∨ x ∈ base.map (·.1)

theorem Elsewhere.cons {own : List (Bool × Nat × Nat)} {x : Nat} (b : Bool × Nat × Nat) (h : Elsewhere own base x) : Elsewhere (b :: own) base x :=
  h.imp (fun h => by simp only [List.map_cons, List.mem_cons]; exact Or.inr h) id

theorem Elsewhere.head (b : Bool × Nat × Nat) : Elsewhere (b :: own) base b.2.1 := Or.inl (by simp)

theorem HeapHolds.apart {b : Bool} {p s : Nat} (h : HeapHolds S ((b, p, s) :: own) base) {x : Nat} (hx : Elsewhere own base x) : x ≠ p := by
  rintro rfl
  have hn := h.nodup
  unfold Heap.addrs at hn
  have hp := (h.heap.map (·.1)).nodup_iff.1 hn
  simp only [List.map_cons, List.cons_append, List.nodup_cons, List.map_append, List.mem_append, List.map_map] at hp
  refine hp.1 ?_
  rcases hx with hx | hx
  · left; left
    simpa [Function.comp_def] using hx
  · left; right
    exact hx

theorem put_same (σ : Store) (p : Nat) (c : Option Cell) : σ.put p c p = c := if_pos rfl

theorem put_other (σ : Store) {p q : Nat} (c : Option Cell) (h : q ≠ p) : σ.put p c q = σ q := if_neg h

theorem allocM_ok (h : HeapHolds S own base) (tr : Bool) {n : Nat} (hn : Granted E n) (σ : Store) :
    (allocM E A (S, σ) tr n = .exit .alloc ∧ TableRefused E) ∨
    ∃ S' σ' p, allocM E A (S, σ) tr n = .ok ((S', σ'), p) ∧ HeapHolds S' ((tr, p, n) :: own) base ∧ ∀ x, Elsewhere own base x → σ' x = σ x := by
  unfold allocM
  rcases h.alloc (A := A) tr hn with ⟨e, ht⟩ | ⟨S1, p, e, h1⟩
  · exact Or.inl ⟨by simp only [e]; rfl, ht⟩
  · exact Or.inr ⟨S1, _, p, by simp only [e]; rfl, h1, fun x hx => put_other _ _ (h1.apart hx)⟩

theorem reallocM_ok {b : Bool} {q s : Nat} (h : HeapHolds S ((b, q, s) :: own) base) {n : Nat} (hn : E.allocOk n = true) (h0 : 0 < n) (σ : Store) :
    (reallocM E A (S, σ) b q n = .exit .alloc ∧ TableRefused E) ∨
    ∃ S' σ' p, reallocM E A (S, σ) b q n = .ok ((S', σ'), p) ∧ HeapHolds S' ((b, p, n) :: own) base ∧ ∀ x, Elsewhere own base x → σ' x = σ x := by
  unfold reallocM
  rcases h.realloc (A := A) hn h0 with ⟨e, ht⟩ | ⟨S1, p, e, h1⟩
  · exact Or.inl ⟨by simp only [e]; rfl, ht⟩
  · exact Or.inr ⟨S1, _, p, by simp only [e]; rfl, h1, fun x hx => by
      show Store.put _ _ _ x = _
      rw [put_other _ _ (h1.apart hx), put_other _ _ (h.apart hx)]⟩

theorem freeM_ok {b : Bool} {q s : Nat} (h : HeapHolds S ((b, q, s) :: own) base) (σ : Store) :
    ∃ S' σ', freeM E (S, σ) b q = .ok (S', σ') ∧ HeapHolds S' own base ∧ ∀ x, Elsewhere own base x → σ' x = σ x := by
  unfold freeM
  obtain ⟨S1, e, h1⟩ := h.free (E := E)
  exact ⟨S1, _, by simp only [e]; rfl, h1, fun x hx => put_other _ _ (h.apart hx)⟩

theorem reallocsM_ok (tr : Bool) : ∀ (l : List Nat) (S : Sys) (σ : Store) (p s : Nat), HeapHolds S ((tr, p, s) :: own) base →
    (∀ n ∈ l, E.allocOk n = true ∧ 0 < n) →
    (reallocsM E A tr (S, σ) p l = .exit .alloc ∧ TableRefused E) ∨
    ∃ S' σ' q, reallocsM E A tr (S, σ) p l = .ok ((S', σ'), q) ∧ HeapHolds S' ((tr, q, lastSize s l) :: own) base ∧
      ∀ x, Elsewhere own base x → σ' x = σ x
  | [], S, σ, p, s, h, _ => Or.inr ⟨S, σ, p, rfl, h, fun _ _ => rfl⟩
  | n :: l, S, σ, p, s, h, hl => by
    obtain ⟨hn, h0⟩ := hl n (List.mem_cons_self ..)
    unfold reallocsM
    rcases reallocM_ok (A := A) h hn h0 σ with ⟨e, ht⟩ | ⟨S1, σ1, q, e, h1, f1⟩
    · exact Or.inl ⟨by rw [e]; rfl, ht⟩
    · rw [e, bind_ok]
      rcases reallocsM_ok tr l S1 σ1 q n h1 (fun k hk => hl k (List.mem_cons_of_mem _ hk)) with h2 | ⟨S2, σ2, q2, e2, h2, f2⟩
      · exact Or.inl h2
      · have hls : lastSize s (n :: l) = lastSize n l := by
          unfold lastSize
          cases l <;> simp [List.getLast?_cons]
        rw [hls]
        exact Or.inr ⟨S2, σ2, q2, e2, h2, fun x hx => (f2 x hx).trans (f1 x hx)⟩

theorem performM_ok (tr : Bool) : ∀ (rs : List Req) (S : Sys) (σ : Store) (p s : Nat), HeapHolds S ((tr, p, s) :: own) base →
    (∀ k ∈ reqSizes rs, E.allocOk k = true) → ReqPos E rs →
    (performM E A tr (S, σ) p rs = .exit .alloc ∧ TableRefused E) ∨
    ∃ S' σ' q, performM E A tr (S, σ) p rs = .ok ((S', σ'), q) ∧ HeapHolds S' ((tr, q, reqFinal s rs) :: own) base ∧
      ∀ x, Elsewhere own base x → σ' x = σ x
  | [], S, σ, p, s, h, _, _ => Or.inr ⟨S, σ, p, rfl, h, fun _ _ => rfl⟩
  | .own n :: rs, S, σ, p, s, h, hg, hpos => by
    unfold performM
    rcases reallocM_ok (A := A) h (hg n (by simp [reqSizes])) hpos.1 σ with ⟨e, ht⟩ | ⟨S1, σ1, q, e, h1, f1⟩
    · exact Or.inl ⟨by rw [e]; rfl, ht⟩
    · rw [e, bind_ok]
      rcases performM_ok tr rs S1 σ1 q n h1 (fun k hk => hg k (by simp [reqSizes, hk])) hpos.2 with h2 | ⟨S2, σ2, q2, e2, h2, f2⟩
      · exact Or.inl h2
      · exact Or.inr ⟨S2, σ2, q2, e2, h2, fun x hx => (f2 x hx).trans (f1 x hx)⟩
  | .tmp n :: rs, S, σ, p, s, h, hg, hpos => by
    unfold performM
    rcases allocM_ok (A := A) h false (n := n) ⟨hg n (by simp [reqSizes]), hpos.1⟩ σ with ⟨e, ht⟩ | ⟨S1, σ1, t, e, h1, f1⟩
    · exact Or.inl ⟨by rw [e]; rfl, ht⟩
    · rw [e, bind_ok]
      obtain ⟨S2, σ2, e2, h2, f2⟩ := freeM_ok (E := E) h1 σ1
      simp only [e2, bind_ok]
      rcases performM_ok tr rs S2 σ2 p s h2 (fun k hk => hg k (by simp [reqSizes, hk])) hpos.2 with h3 | ⟨S3, σ3, q3, e3, h3, f3⟩
      · exact Or.inl h3
      · exact Or.inr ⟨S3, σ3, q3, e3, h3, fun x hx => (f3 x hx).trans ((f2 x (hx.cons _)).trans (f1 x (hx.cons _)))⟩
  | .tmpStr n k inner :: rs, S, σ, p, s, h, hg, hpos => by
    unfold performM
    obtain ⟨p1, p2, p3, p4⟩ := hpos
    rcases allocM_ok (A := A) h tr (n := arrStructSize) ⟨hg _ (by simp [reqSizes]), fun _ => by simp [arrStructSize]⟩ σ with
      ⟨e, ht⟩ | ⟨S1, σ1, hd, e, h1, f1⟩
    · exact Or.inl ⟨by rw [e]; rfl, ht⟩
    rw [e, bind_ok]
    rcases allocM_ok (A := A) h1 tr (n := n) ⟨hg _ (by simp [reqSizes]), fun _ => p1⟩ σ1 with ⟨e, ht⟩ | ⟨S2, σ2, b, e, h2, f2⟩
    · exact Or.inl ⟨by simp only [e]; rfl, ht⟩
    simp only [e, bind_ok]
    rcases reallocM_ok (A := A) h2 (n := k) (hg _ (by simp [reqSizes])) p2 σ2 with ⟨e, ht⟩ | ⟨S3, σ3, b', e, h3, f3⟩
    · exact Or.inl ⟨by simp only [e]; rfl, ht⟩
    simp only [e, bind_ok]
    have h3' := h3.perm (own' := (tr, p, s) :: (tr, b', k) :: (tr, hd, arrStructSize) :: own)
      (by
        refine (List.Perm.cons _ (List.Perm.swap _ _ _)).trans ?_
        exact List.Perm.swap _ _ _)
    rcases reallocsM_ok (A := A) (E := E) tr inner S3 σ3 p s h3' (fun x hx => ⟨hg x (by simp [reqSizes, hx]), p3 x hx⟩) with
      ⟨e, ht⟩ | ⟨S4, σ4, q, e, h4, f4⟩
    · exact Or.inl ⟨by simp only [e]; rfl, ht⟩
    simp only [e, bind_ok]
    have h4' := h4.perm (own' := (tr, b', k) :: (tr, hd, arrStructSize) :: (tr, q, lastSize s inner) :: own)
      (by
        refine (List.Perm.swap _ _ _).trans ?_
        exact List.Perm.cons _ (List.Perm.swap _ _ _))
    obtain ⟨S5, σ5, e5, h5, f5⟩ := freeM_ok (E := E) h4' σ4
    simp only [e5, bind_ok]
    obtain ⟨S6, σ6, e6, h6, f6⟩ := freeM_ok (E := E) h5 σ5
    simp only [e6, bind_ok]
    rcases performM_ok tr rs S6 σ6 q _ h6 (fun x hx => hg x (by simp [reqSizes, hx])) p4 with h7 | ⟨S7, σ7, q7, e7, h7, f7⟩
    · exact Or.inl h7
    · refine Or.inr ⟨S7, σ7, q7, e7, h7, fun x hx => ?_⟩
      rw [f7 x hx, f6 x (hx.cons _), f5 x ((hx.cons _).cons _), f4 x ((hx.cons _).cons _), f3 x ((hx.cons _).cons _), f2 x ((hx.cons _).cons _),
        f1 x (hx.cons _)]

/-- The memory holds the containers: the pointers lead to the headers, these hold the fields and lead to the buffers; what the rest of the program has in its
blocks is still there. -/
structure Stored (M : Machine) (s : St) (base : List (Nat × Nat)) (σ₀ : Store) : Prop where
  sys : M.sys = s.sys
  count : M.ptrs.length = s.objs.length
  live : ∀ (i : Nat) (o : Obj), s.objs[i]? = some (some o) → M.ptrs[i]? = some o.hdr ∧ M.store o.hdr = some (headerOf o) ∧ M.store o.buf = some (.bytes o.arr.mem)
  rest : ∀ q ∈ base.map (·.1), M.store q = σ₀ q

theorem load_eq {σ : Store} {o : Obj} (h1 : σ o.hdr = some (headerOf o)) (h2 : σ o.buf = some (.bytes o.arr.mem)) : Own.load σ o.hdr = .ok o := by
  unfold Own.load
  simp only [h1, headerOf, h2]

theorem Stored.load {M : Machine} {s : St} (h : Stored M s base σ₀) {i : Nat} {o : Obj} (hi : s.objs[i]? = some (some o)) : M.load i = .ok o := by
  obtain ⟨h1, h2, h3⟩ := h.live i o hi
  unfold Machine.load Machine.ptr
  rw [h1]
  exact load_eq h2 h3

theorem load_save {σ : Store} {o : Obj} (h : o.buf ≠ o.hdr) : (save σ o) o.hdr = some (headerOf o) ∧ (save σ o) o.buf = some (.bytes o.arr.mem) := by
  unfold save
  exact ⟨put_same _ _ _, by rw [put_other _ _ h, put_same]⟩

theorem save_other {σ : Store} {o : Obj} {x : Nat} (h1 : x ≠ o.buf) (h2 : x ≠ o.hdr) : (save σ o) x = σ x := by
  unfold save
  rw [put_other _ _ h2, put_other _ _ h1]

theorem mem_blocksOf {objs : List (Option Obj)} {j : Nat} {o : Obj} (h : objs[j]? = some (some o)) :
    (o.tracked, o.buf, o.arr.mem.length) ∈ blocksOf objs ∧ (o.tracked, o.hdr, 56) ∈ blocksOf objs := by
  unfold blocksOf
  have hm := List.mem_of_getElem? h
  exact ⟨List.mem_flatMap.2 ⟨_, hm, by simp⟩, List.mem_flatMap.2 ⟨_, hm, by simp⟩⟩

theorem elsewhere_obj {objs : List (Option Obj)} {rest : List (Bool × Nat × Nat)} (hp : (blocksOf objs).Perm rest) {j : Nat} {o : Obj}
    (h : objs[j]? = some (some o)) : Elsewhere rest base o.buf ∧ Elsewhere rest base o.hdr := by
  obtain ⟨h1, h2⟩ := mem_blocksOf h
  exact ⟨Or.inl (List.mem_map.2 ⟨_, hp.mem_iff.1 h1, rfl⟩), Or.inl (List.mem_map.2 ⟨_, hp.mem_iff.1 h2, rfl⟩)⟩

/-- The machine follows the version without a heap, as long as that is defined; `K` holds of the containers at the end. -/
def FollowsM (E : Env) (base : List (Nat × Nat)) (σ₀ : Store) (K : St → Prop) (r : Out Machine) (c : Out Contents) : Prop :=
  (r = .exit .alloc ∧ TableRefused E) ∨
  match c with
  | .ok c => ∃ M s, r = .ok M ∧ contents s = c ∧ GoodSt s base ∧ Stored M s base σ₀ ∧ K s
  | .exit w => r = .exit w
  | .fuel => r = .fuel
  | .ub => True

theorem FollowsM.bind {K K' : St → Prop} {r : Out Machine} {c : Out Contents} {k : Machine → Out Machine} {k' : Contents → Out Contents}
    (h : FollowsM E base σ₀ K r c) (hk : ∀ M s, GoodSt s base → Stored M s base σ₀ → FollowsM E base σ₀ K' (k M) (k' (contents s))) :
    FollowsM E base σ₀ K' (r >>= k) (c >>= k') := by
  rcases h with ⟨h, ht⟩ | h
  · exact Or.inl ⟨by rw [h]; rfl, ht⟩
  · cases c with
    | ok c =>
      obtain ⟨M, s, e, hc, hg, hs, -⟩ := h
      rw [e, ← hc]
      exact hk M s hg hs
    | exit w => rw [show r = .exit w from h]; exact Or.inr rfl
    | ub => exact Or.inr trivial
    | fuel => rw [show r = .fuel from h]; exact Or.inr rfl

theorem FollowsM.pure {K : St → Prop} {α : Type} {r : Out α} {k : α → Out Machine} {k' : α → Out Contents}
    (hk : ∀ a, r = .ok a → FollowsM E base σ₀ K (k a) (k' a)) : FollowsM E base σ₀ K (r >>= k) (r >>= k') := by
  cases r with
  | ok a => exact hk a rfl
  | exit w => exact Or.inr rfl
  | ub => exact Or.inr trivial
  | fuel => exact Or.inr rfl

/-- The containers that a command does not change are the same after it. -/
def Kept (s : St) (c : Cmd) (s' : St) : Prop :=
  ∀ (j : Nat) (o : Obj), s.objs[j]? = some (some o) → (∀ f, c ≠ .call j f) → c ≠ .destroy j → s'.objs[j]? = some (some o)

theorem newM_follows {M : Machine} {s : St} {tr : Bool} {kind : Kind} {bytes : Nat} {a : Arr} (h : GoodSt s base) (hs : Stored M s base σ₀) (c : Cmd)
    (ho : Granted E arrStructSize ∧ Granted E bytes ∧ a.mem.length = bytes ∧ a.isView = false) :
    FollowsM E base σ₀ (Kept s c) (newM E A M tr kind bytes a) (.ok (contents s ++ [some (⟨kind, tr⟩, a)])) := by
  obtain ⟨g1, g2, g3, g4⟩ := ho
  unfold newM
  rw [hs.sys]
  rcases allocM_ok (A := A) h.holds tr g1 M.store with ⟨e, ht⟩ | ⟨S1, σ1, hd, e, h1, f1⟩
  · exact Or.inl ⟨by rw [e]; rfl, ht⟩
  simp only [e, bind_ok]
  rcases allocM_ok (A := A) h1 tr g2 σ1 with ⟨e, ht⟩ | ⟨S2, σ2, b, e, h2, f2⟩
  · exact Or.inl ⟨by rw [e]; rfl, ht⟩
  simp only [e, bind_ok]
  have hb : b ≠ hd := fun hb => h2.apart (Elsewhere.head _) hb.symm
  refine Or.inr ⟨_, ⟨S2, s.objs ++ [some ⟨kind, hd, b, tr, a⟩]⟩, rfl, by simp [contents], ⟨?_, ?_⟩, ⟨rfl, by simp [hs.count], ?_, ?_⟩,
    fun j o hj _ _ => by rw [List.getElem?_append_left (List.getElem?_eq_some_iff.1 hj).1]; exact hj⟩
  · rw [blocksOf_append]
    refine h2.perm ?_
    rw [← g3]
    exact List.perm_append_comm (l₁ := [_, _])
  · intro o ho
    rcases List.mem_append.1 ho with ho | ho
    · exact h.view o ho
    · simp at ho; subst ho; exact g4
  · intro i o hi
    rcases Nat.lt_or_ge i s.objs.length with hlt | hge
    · rw [List.getElem?_append_left hlt] at hi
      obtain ⟨l1, l2, l3⟩ := hs.live i o hi
      obtain ⟨x1, x2⟩ := elsewhere_obj (base := base) (List.Perm.refl _) hi
      refine ⟨by rw [List.getElem?_append_left (by rw [hs.count]; exact hlt)]; exact l1, ?_, ?_⟩
      · show save σ2 _ _ = _
        rw [save_other (h2.apart (x2.cons _)) (h1.apart x2), f2 _ (x2.cons _), f1 _ x2, l2]
      · show save σ2 _ _ = _
        rw [save_other (h2.apart (x1.cons _)) (h1.apart x1), f2 _ (x1.cons _), f1 _ x1, l3]
    · rw [List.getElem?_append_right hge] at hi
      have hi0 : i = s.objs.length := by
        by_contra hne
        rw [List.getElem?_eq_none (by simp; omega)] at hi
        cases hi
      subst hi0
      simp at hi
      subst hi
      refine ⟨by simp [← hs.count], ?_⟩
      exact load_save hb
  · intro q hq
    have x : Elsewhere (blocksOf s.objs) base q := Or.inr hq
    show save σ2 _ _ = _
    rw [save_other (h2.apart (x.cons _)) (h1.apart x), f2 _ (x.cons _), f1 _ x, hs.rest q hq]

/-- A call on one container: what the others and the rest of the program have is where it was. -/
theorem callM_follows {M : Machine} {s : St} (h : GoodSt s base) (hs : Stored M s base σ₀) {i : Nat} {o : Obj} (hi : s.objs[i]? = some (some o))
    {f : Call} (hk : f.kind = o.kind) {a : Arr} (ha : f.run E o.arr = .ok a) :
    (stepM E A M (.call i f) = .exit .alloc ∧ TableRefused E) ∨
    ∃ M' S' q, stepM E A M (.call i f) = .ok M' ∧ M'.ptrs = M.ptrs ∧ GoodSt ⟨S', s.objs.set i (some { o with buf := q, arr := a })⟩ base ∧
      Stored M' ⟨S', s.objs.set i (some { o with buf := q, arr := a })⟩ base σ₀ ∧
      ∀ x, Elsewhere (blocksOf (s.objs.set i none)) base x → M'.store x = M.store x := by
  obtain ⟨g1, g2, g3⟩ := (call_fai (E := E) f o.arr).granted a ha
  obtain ⟨rest, p1, p2, p3⟩ := blocksOf_live hi
  have hv := call_keeps (E := E) f o.arr a ha
  unfold stepM
  dsimp only
  rw [hs.load hi, bind_ok, if_neg (not_not.2 hk), ha, bind_ok, hs.sys]
  rcases performM_ok (A := A) o.tracked (f.reqs E o.arr) s.sys M.store o.buf _ (h.holds.perm p1) g1 g2 with ⟨e, ht⟩ | ⟨S1, σ1, q, e, h1, f1⟩
  · exact Or.inl ⟨by rw [e]; rfl, ht⟩
  simp only [e, bind_ok]
  have hq : q ≠ o.hdr := fun hb => h1.apart (Elsewhere.head _) hb.symm
  have hframe : ∀ x, Elsewhere rest base x → save σ1 { o with buf := q, arr := a } x = M.store x := by
    intro x hx
    have h1' := h1.perm (List.Perm.swap ..)
    rw [save_other (o := { o with buf := q, arr := a }) (h1.apart (hx.cons _)) (h1'.apart (hx.cons _)), f1 _ (hx.cons _)]
  refine Or.inr ⟨_, S1, q, rfl, rfl, ⟨?_, ?_⟩, ⟨rfl, by simp [hs.count], ?_, ?_⟩, ?_⟩
  · refine h1.perm (List.Perm.symm ((p3 _).trans ?_))
    rw [show reqFinal o.arr.mem.length (f.reqs E o.arr) = a.mem.length from g3]
  · intro o' ho
    rcases List.mem_or_eq_of_mem_set ho with ho | ho
    · exact h.view o' ho
    · injection ho with ho
      subst ho
      exact hv.trans (h.view o (List.mem_of_getElem? hi))
  · intro j o' hj
    by_cases hji : i = j
    · subst hji
      rw [List.getElem?_set_self (List.getElem?_eq_some_iff.1 hi).1] at hj
      injection hj with hj
      injection hj with hj
      subst hj
      exact ⟨(hs.live i o hi).1, load_save (o := { o with buf := q, arr := a }) hq⟩
    · rw [List.getElem?_set_ne hji] at hj
      obtain ⟨l1, l2, l3⟩ := hs.live j o' hj
      have hj' : (s.objs.set i none)[j]? = some (some o') := by rw [List.getElem?_set_ne hji]; exact hj
      obtain ⟨x1, x2⟩ := elsewhere_obj (base := base) p2 hj'
      exact ⟨l1, by rw [← l2]; exact hframe _ x2, by rw [← l3]; exact hframe _ x1⟩
  · intro x hx
    rw [← hs.rest x hx]
    exact hframe x (Or.inr hx)
  · intro x hx
    refine hframe x (hx.imp (fun hx => ?_) id)
    exact (p2.map _).mem_iff.1 hx

theorem stepM_follows {M : Machine} {s : St} (h : GoodSt s base) (hs : Stored M s base σ₀) (c : Cmd) :
    FollowsM E base σ₀ (Kept s c) (stepM E A M c) (plainStep E (contents s) c) := by
  cases c with
  | make tr m => exact FollowsM.pure fun a ha => newM_follows h hs _ (make_owned ha)
  | makeLike i m =>
    unfold stepM plainStep
    dsimp only
    rcases live_follows (s := s) (i := i) with ⟨o, hi, e1, e2⟩ | ⟨e1, e2⟩
    swap
    · rw [e2]; exact Or.inr trivial
    rw [hs.load hi, e2]
    simp only [bind_ok]
    exact FollowsM.pure fun a ha => newM_follows h hs _ (make_owned ha)
  | call i f =>
    rcases live_follows (s := s) (i := i) with ⟨o, hi, e1, e2⟩ | ⟨e1, e2⟩
    swap
    · unfold plainStep; dsimp only; rw [e2]; exact Or.inr trivial
    by_cases hk : f.kind = o.kind
    swap
    · unfold plainStep; dsimp only; rw [e2, bind_ok, if_pos hk]; exact Or.inr trivial
    cases ha : f.run E o.arr with
    | ok a =>
      rcases callM_follows (A := A) h hs hi hk ha with hx | ⟨M', S', q, e, -, g1, g2, -⟩
      · exact Or.inl hx
      · right
        have : plainStep E (contents s) (.call i f) = .ok ((contents s).set i (some (⟨o.kind, o.tracked⟩, a))) := by
          unfold plainStep
          dsimp only
          rw [e2, bind_ok, if_neg (not_not.2 hk), ha, bind_ok]
        rw [this]
        refine ⟨M', _, e, by simp [contents, List.map_set], g1, g2, fun j o' hj h1 _ => ?_⟩
        show (s.objs.set i _)[j]? = _
        rw [List.getElem?_set_ne (fun hij => h1 f (by rw [hij]))]
        exact hj
    | exit w =>
      right
      unfold stepM plainStep
      dsimp only
      rw [hs.load hi, e2, bind_ok, bind_ok, if_neg (not_not.2 hk), if_neg (not_not.2 hk), ha]
      rfl
    | fuel =>
      right
      unfold stepM plainStep
      dsimp only
      rw [hs.load hi, e2, bind_ok, bind_ok, if_neg (not_not.2 hk), if_neg (not_not.2 hk), ha]
      rfl
    | ub =>
      right
      unfold plainStep
      dsimp only
      rw [e2, bind_ok, if_neg (not_not.2 hk), ha]
      trivial
  | dup i tr =>
    unfold stepM plainStep
    dsimp only
    rcases live_follows (s := s) (i := i) with ⟨o, hi, e1, e2⟩ | ⟨e1, e2⟩
    swap
    · rw [e2]; exact Or.inr trivial
    rw [hs.load hi, e2]
    simp only [bind_ok]
    have hd : plainDup E o.kind o.arr = (dupOf E o).1 := by
      unfold dupOf; cases o.kind <;> rfl
    rw [hd]
    exact FollowsM.pure fun a ha => newM_follows h hs _ (dup_owned ha)
  | destroy i =>
    unfold stepM plainStep
    dsimp only
    rcases live_follows (s := s) (i := i) with ⟨o, hi, e1, e2⟩ | ⟨e1, e2⟩
    swap
    · rw [e2]; exact Or.inr trivial
    rw [hs.load hi, e2]
    simp only [bind_ok]
    obtain ⟨rest, p1, p2, -⟩ := blocksOf_live hi
    have hv := h.view o (List.mem_of_getElem? hi)
    rw [if_neg (by rw [hv]; simp), hs.sys]
    obtain ⟨S1, σ1, e1, h1, f1⟩ := freeM_ok (E := E) (h.holds.perm p1) M.store
    obtain ⟨S2, σ2, e2, h2, f2⟩ := freeM_ok (E := E) h1 σ1
    simp only [e1, bind_ok, e2]
    refine Or.inr ⟨_, ⟨S2, s.objs.set i none⟩, rfl, by simp [contents, List.map_set], ⟨h2.perm p2.symm, ?_⟩, ⟨rfl, by simp [hs.count], ?_, ?_⟩, ?_⟩
    · intro o' ho
      rcases List.mem_or_eq_of_mem_set ho with ho | ho
      · exact h.view o' ho
      · cases ho
    · intro j o' hj
      by_cases hji : i = j
      · subst hji
        rw [List.getElem?_set_self (List.getElem?_eq_some_iff.1 hi).1] at hj
        cases hj
      · obtain ⟨x1, x2⟩ := elsewhere_obj (base := base) p2 hj
        rw [List.getElem?_set_ne hji] at hj
        obtain ⟨l1, l2, l3⟩ := hs.live j o' hj
        refine ⟨l1, ?_, ?_⟩
        · show σ2 _ = _
          rw [f2 _ x2, f1 _ (x2.cons _), l2]
        · show σ2 _ = _
          rw [f2 _ x1, f1 _ (x1.cons _), l3]
    · intro q hq
      have x : Elsewhere rest base q := Or.inr hq
      show σ2 _ = _
      rw [f2 _ x, f1 _ (x.cons _), hs.rest q hq]
    · intro j o' hj _ h2
      show (s.objs.set i _)[j]? = _
      rw [List.getElem?_set_ne (fun hij => h2 (by rw [hij]))]
      exact hj

theorem runM_follows : ∀ (cs : List Cmd) (M : Machine) (s : St), GoodSt s base → Stored M s base σ₀ →
    FollowsM E base σ₀ (fun _ => True) (runM E A M cs) (plainRun E (contents s) cs)
  | [], _, _, h, hs => Or.inr ⟨_, _, rfl, rfl, h, hs, trivial⟩
  | c :: cs, _, _, h, hs => FollowsM.bind (stepM_follows h hs c) fun _ _ h' hs' => runM_follows cs _ _ h' hs'

theorem runM_ok {M : Machine} {s : St} (h : GoodSt s base) (hs : Stored M s base σ₀) {cs : List Cmd} {c : Contents} (hp : plainRun E (contents s) cs = .ok c)
    {M' : Machine} (hr : runM E A M cs = .ok M') : ∃ s', contents s' = c ∧ GoodSt s' base ∧ Stored M' s' base σ₀ := by
  rcases runM_follows (E := E) (A := A) cs M s h hs with ⟨e, -⟩ | e
  · rw [hr] at e; cases e
  · rw [hp] at e
    obtain ⟨M1, s1, e1, e2, e3, e4, -⟩ := e
    rw [hr] at e1
    injection e1 with e1
    subst e1
    exact ⟨s1, e2, e3, e4⟩

theorem stepM_ok {M : Machine} {s : St} (h : GoodSt s base) (hs : Stored M s base σ₀) {k : Cmd} {c : Contents} (hp : plainStep E (contents s) k = .ok c)
    {M' : Machine} (hr : stepM E A M k = .ok M') : ∃ s', contents s' = c ∧ GoodSt s' base ∧ Stored M' s' base σ₀ ∧ Kept s k s' := by
  rcases stepM_follows (E := E) (A := A) h hs k with ⟨e, -⟩ | e
  · rw [hr] at e; cases e
  · rw [hp] at e
    obtain ⟨M1, s1, e1, e2, e3, e4, e5⟩ := e
    rw [hr] at e1
    injection e1 with e1
    subst e1
    exact ⟨s1, e2, e3, e4, e5⟩

theorem plainRun_append (c : Contents) (xs ys : List Cmd) : plainRun E c (xs ++ ys) = plainRun E c xs >>= fun c => plainRun E c ys := by
  induction xs generalizing c with
  | nil => rfl
  | cons x xs ih =>
    show (plainStep E c x >>= fun c => plainRun E c (xs ++ ys)) = (plainStep E c x >>= fun c => plainRun E c xs) >>= fun c => plainRun E c ys
    cases plainStep E c x with
    | ok c => exact ih c
    | exit w => rfl
    | ub => rfl
    | fuel => rfl

theorem runM_append (M : Machine) (xs ys : List Cmd) : runM E A M (xs ++ ys) = runM E A M xs >>= fun M => runM E A M ys := by
  induction xs generalizing M with
  | nil => rfl
  | cons x xs ih =>
    show (stepM E A M x >>= fun c => runM E A c (xs ++ ys)) = (stepM E A M x >>= fun c => runM E A c xs) >>= fun c => runM E A c ys
    cases stepM E A M x with
    | ok c => exact ih c
    | exit w => rfl
    | ub => rfl
    | fuel => rfl

theorem newM_ptrs {M M' : Machine} {tr : Bool} {kind : Kind} {n : Nat} {a : Arr} (h : newM E A M tr kind n a = .ok M') : M.ptrs <+: M'.ptrs := by
  unfold newM at h
  obtain ⟨x, -, h⟩ := bind_eq_ok.1 h
  obtain ⟨y, -, h⟩ := bind_eq_ok.1 h
  injection h with h
  rw [← h]
  exact List.prefix_append ..

theorem stepM_ptrs {M M' : Machine} {k : Cmd} (h : stepM E A M k = .ok M') : M.ptrs <+: M'.ptrs := by
  cases k with
  | make tr mk =>
    obtain ⟨a, -, h⟩ := bind_eq_ok.1 h
    exact newM_ptrs h
  | makeLike i mk =>
    obtain ⟨o, -, h⟩ := bind_eq_ok.1 h
    obtain ⟨a, -, h⟩ := bind_eq_ok.1 h
    exact newM_ptrs h
  | dup i tr =>
    obtain ⟨o, -, h⟩ := bind_eq_ok.1 h
    obtain ⟨a, -, h⟩ := bind_eq_ok.1 h
    exact newM_ptrs h
  | call i f =>
    obtain ⟨o, -, h⟩ := bind_eq_ok.1 h
    split at h
    · cases h
    obtain ⟨a, -, h⟩ := bind_eq_ok.1 h
    obtain ⟨a, -, h⟩ := bind_eq_ok.1 h
    injection h with h
    rw [← h]
    exact List.prefix_refl _
  | destroy i =>
    obtain ⟨o, -, h⟩ := bind_eq_ok.1 h
    split at h
    · injection h with h
      rw [h]
      exact List.prefix_refl _
    obtain ⟨a, -, h⟩ := bind_eq_ok.1 h
    obtain ⟨a, -, h⟩ := bind_eq_ok.1 h
    injection h with h
    rw [← h]
    exact List.prefix_refl _

theorem runM_ptrs : ∀ (cs : List Cmd) (M M' : Machine), runM E A M cs = .ok M' → M.ptrs <+: M'.ptrs
  | [], _, _, h => by injection h with h; rw [h]; exact List.prefix_refl _
  | _ :: cs, _, _, h => by
    obtain ⟨_, h1, h2⟩ := bind_eq_ok.1 h
    exact (stepM_ptrs h1).trans (runM_ptrs cs _ _ h2)

theorem contents_live {s : St} {i : Nat} {x : Tag × Arr} (h : (contents s)[i]? = some (some x)) :
    ∃ o, s.objs[i]? = some (some o) ∧ x = (⟨o.kind, o.tracked⟩, o.arr) := by
  unfold contents at h
  rw [List.getElem?_map] at h
  cases e : s.objs[i]? with
  | none => rw [e] at h; cases h
  | some y =>
    rw [e] at h
    cases y with
    | none => simp at h
    | some o =>
      simp at h
      exact ⟨o, rfl, h.symm⟩

theorem live_contents {s : St} {i : Nat} {o : Obj} (h : s.objs[i]? = some (some o)) : (contents s)[i]? = some (some (⟨o.kind, o.tracked⟩, o.arr)) := by
  unfold contents
  rw [List.getElem?_map, h]
  rfl

theorem stored_start (H : Heap) (m : T) : Stored ⟨⟨H, m⟩, σ₀, []⟩ ⟨⟨H, m⟩, []⟩ base σ₀ :=
  ⟨rfl, rfl, fun _ _ h => by simp at h, fun _ _ => rfl⟩

/-- The addresses of two live containers. -/
theorem stored_apart {s : St} (h : GoodSt s base) {i j : Nat} {o o' : Obj} (hi : s.objs[i]? = some (some o)) (hj : s.objs[j]? = some (some o'))
    (hij : i ≠ j) : o.hdr ≠ o'.hdr ∧ o.hdr ≠ o'.buf ∧ o.buf ≠ o'.hdr ∧ o.buf ≠ o'.buf := by
  obtain ⟨rest, p1, p2, -⟩ := blocksOf_live hi
  have hj' : (s.objs.set i none)[j]? = some (some o') := by rw [List.getElem?_set_ne hij]; exact hj
  obtain ⟨x1, x2⟩ := elsewhere_obj (base := base) p2 hj'
  have h1 := h.holds.perm p1
  have h2 := h1.perm (List.Perm.swap ..)
  exact ⟨(h2.apart (x2.cons _)).symm, (h2.apart (x1.cons _)).symm, (h1.apart (x2.cons _)).symm, (h1.apart (x1.cons _)).symm⟩

/-! ### The claims -/

/-- **C117.** All containers are in one memory, found through pointers to headers and from there through pointers to buffers; blocks move when they grow, and
addresses are used again.  Whatever the program does, each live container holds at the end what it would hold if the contents of each container were kept
separately; no two have a block in common; and the rest of the program finds its blocks as it left them. -/
theorem C117_run {H₀ H : Heap} {m : T} (hd : H₀.addrs.Nodup) (hc : Mal.create E A H₀ = .ok (m, H)) (σ₀ : Store) (cs : List Cmd) :
    (runM E A ⟨⟨H, m⟩, σ₀, []⟩ cs = .exit .alloc ∧ ∃ c, E.allocOk (2 * c * 16) = false) ∨
    match plainRun E [] cs with
    | .ok c => ∃ M, runM E A ⟨⟨H, m⟩, σ₀, []⟩ cs = .ok M ∧
        (∀ i t a, c[i]? = some (some (t, a)) → ∃ p b, M.load i = .ok ⟨t.kind, p, b, t.tracked, a⟩) ∧
        (∀ i j o o', i ≠ j → c[i]?.join.isSome → c[j]?.join.isSome → M.load i = .ok o → M.load j = .ok o' →
          o.hdr ≠ o'.hdr ∧ o.hdr ≠ o'.buf ∧ o.buf ≠ o'.hdr ∧ o.buf ≠ o'.buf) ∧
        ∀ q ∈ H₀.addrs, M.store q = σ₀ q
    | .exit w => runM E A ⟨⟨H, m⟩, σ₀, []⟩ cs = .exit w
    | .fuel => runM E A ⟨⟨H, m⟩, σ₀, []⟩ cs = .fuel
    | .ub => True := by
  rcases runM_follows (E := E) (A := A) cs _ _ (good_start hd hc) (stored_start (σ₀ := σ₀) H m) with h | h
  · exact Or.inl h
  · right
    have hc : contents ⟨⟨H, m⟩, []⟩ = [] := rfl
    rw [hc] at h
    cases e : plainRun E [] cs with
    | ok c =>
      rw [e] at h
      obtain ⟨M, s, e1, rfl, e3, e4, -⟩ := h
      refine ⟨M, e1, fun i t a hi => ?_, fun i j o o' hij hi hj ho ho' => ?_, e4.rest⟩
      · obtain ⟨o, ho, hx⟩ := contents_live hi
        injection hx with hx1 hx2
        subst hx1; subst hx2
        exact ⟨o.hdr, o.buf, e4.load ho⟩
      · have key : ∀ {k : Nat} {x : Obj}, ((contents s)[k]?.join).isSome → M.load k = .ok x → s.objs[k]? = some (some x) := by
          intro k x hk hl
          cases hck : (contents s)[k]? with
          | none => rw [hck] at hk; cases hk
          | some y =>
            cases y with
            | none => rw [hck] at hk; cases hk
            | some y =>
              obtain ⟨z, hz, -⟩ := contents_live hck
              rw [e4.load hz] at hl
              injection hl with hl
              rw [← hl]; exact hz
        exact stored_apart e3 (key hi ho) (key hj ho') hij
    | exit w => rw [e] at h; exact h
    | ub => trivial
    | fuel => rw [e] at h; exact h

/-- **C117.** A command that neither changes nor destroys the container `j` leaves it alone: same address, same header, same buffer at the same address. -/
theorem C117_frame {H₀ H : Heap} {m : T} (hd : H₀.addrs.Nodup) (hc : Mal.create E A H₀ = .ok (m, H)) {σ₀ : Store} {cs : List Cmd} {k : Cmd}
    {c : Contents} (hp : plainRun E [] (cs ++ [k]) = .ok c) {M M' : Machine} (hr : runM E A ⟨⟨H, m⟩, σ₀, []⟩ cs = .ok M) (hr' : stepM E A M k = .ok M')
    {j : Nat} (hj : ∀ f, k ≠ .call j f) (hj' : k ≠ .destroy j) (hl : c[j]?.join.isSome) (hold : j < M.ptrs.length) :
    M'.load j = M.load j ∧ M'.ptr j = M.ptr j := by
  rw [plainRun_append] at hp
  obtain ⟨c1, hp1, hp2⟩ := bind_eq_ok.1 hp
  obtain ⟨c2, hp2', hp3⟩ := bind_eq_ok.1 hp2
  clear hp2
  rename plainStep E c1 k = .ok c2 => hp2
  injection hp3 with hp3
  subst hp3
  obtain ⟨s1, rfl, g1, t1⟩ := runM_ok (good_start hd hc) (stored_start (σ₀ := σ₀) H m) hp1 hr
  obtain ⟨s2, rfl, g2, t2, kp⟩ := stepM_ok g1 t1 hp2 hr'
  have hlive : ∃ o, s1.objs[j]? = some (some o) := by
    have hlt : j < s1.objs.length := by rw [← t1.count]; exact hold
    cases e : s1.objs[j]? with
    | none => rw [List.getElem?_eq_none_iff] at e; omega
    | some y =>
      cases y with
      | some o => exact ⟨o, rfl⟩
      | none =>
        exfalso
        have hx : (contents s1)[j]? = some none := by unfold contents; rw [List.getElem?_map, e]; rfl
        have hlen : j < (contents s1).length := by simpa [contents] using hlt
        have hstay : (contents s2)[j]? = some none := by
          cases k with
          | make tr mk =>
            obtain ⟨a, -, h⟩ := bind_eq_ok.1 hp2
            injection h with h
            rw [← h, List.getElem?_append_left hlen]; exact hx
          | makeLike i mk =>
            obtain ⟨o, -, h⟩ := bind_eq_ok.1 hp2
            obtain ⟨a, -, h⟩ := bind_eq_ok.1 h
            injection h with h
            rw [← h, List.getElem?_append_left hlen]; exact hx
          | call i f =>
            obtain ⟨o, -, h⟩ := bind_eq_ok.1 hp2
            split at h
            · cases h
            obtain ⟨a, -, h⟩ := bind_eq_ok.1 h
            injection h with h
            rw [← h, List.getElem?_set_ne (fun hij => hj f (by rw [hij]))]; exact hx
          | dup i tr =>
            obtain ⟨o, -, h⟩ := bind_eq_ok.1 hp2
            obtain ⟨a, -, h⟩ := bind_eq_ok.1 h
            injection h with h
            rw [← h, List.getElem?_append_left hlen]; exact hx
          | destroy i =>
            obtain ⟨o, -, h⟩ := bind_eq_ok.1 hp2
            injection h with h
            rw [← h, List.getElem?_set_ne (fun hij => hj' (by rw [hij]))]; exact hx
        rw [hstay] at hl
        cases hl
  obtain ⟨o, ho⟩ := hlive
  have ho' := kp j o ho hj hj'
  refine ⟨(t2.load ho').trans (t1.load ho).symm, ?_⟩
  unfold Machine.ptr
  rw [(t2.live j o ho').1, (t1.live j o ho).1]

/-- The calls on the container `j` in a program. -/
def callsOn (j : Nat) : List Cmd → List Call
  | [] => []
  | .call i f :: cs => if i = j then f :: callsOn j cs else callsOn j cs
  | _ :: cs => callsOn j cs

/-- Calls on one container, one after the other. -/
def inTurn (E : Env) : Arr → List Call → Out Arr
  | a, [] => .ok a
  | a, f :: fs => do
    let a ← f.run E a
    inTurn E a fs

theorem plain_history {j : Nat} : ∀ (cs : List Cmd) (c c' : Contents), plainRun E c cs = .ok c' → ∀ t a, c[j]? = some (some (t, a)) →
    .destroy j ∉ cs → ∃ a', c'[j]? = some (some (t, a')) ∧ inTurn E a (callsOn j cs) = .ok a'
  | [], c, c', h, t, a, hj, _ => by
    injection h with h
    exact ⟨a, by rw [← h]; exact hj, rfl⟩
  | k :: cs, c, c', h, t, a, hj, hd => by
    obtain ⟨c1, h1, h2⟩ := bind_eq_ok.1 h
    have hd' : Cmd.destroy j ∉ cs := fun hx => hd (List.mem_cons_of_mem _ hx)
    have hlt := (List.getElem?_eq_some_iff.1 hj).1
    have same : c1[j]? = some (some (t, a)) → callsOn j (k :: cs) = callsOn j cs →
        ∃ a', c'[j]? = some (some (t, a')) ∧ inTurn E a (callsOn j (k :: cs)) = .ok a' := by
      intro e1 e2
      rw [e2]
      exact plain_history cs c1 c' h2 t a e1 hd'
    cases k with
    | make tr mk =>
      obtain ⟨b, -, h1⟩ := bind_eq_ok.1 h1
      injection h1 with h1
      exact same (by rw [← h1, List.getElem?_append_left hlt]; exact hj) rfl
    | makeLike i mk =>
      obtain ⟨o, -, h1⟩ := bind_eq_ok.1 h1
      obtain ⟨b, -, h1⟩ := bind_eq_ok.1 h1
      injection h1 with h1
      exact same (by rw [← h1, List.getElem?_append_left hlt]; exact hj) rfl
    | dup i tr =>
      obtain ⟨o, -, h1⟩ := bind_eq_ok.1 h1
      obtain ⟨b, -, h1⟩ := bind_eq_ok.1 h1
      injection h1 with h1
      exact same (by rw [← h1, List.getElem?_append_left hlt]; exact hj) rfl
    | destroy i =>
      obtain ⟨o, -, h1⟩ := bind_eq_ok.1 h1
      injection h1 with h1
      have hij : i ≠ j := fun hij => hd (by rw [hij]; exact List.mem_cons_self ..)
      exact same (by rw [← h1, List.getElem?_set_ne hij]; exact hj) rfl
    | call i f =>
      obtain ⟨o, ho, h1⟩ := bind_eq_ok.1 h1
      split at h1
      · cases h1
      obtain ⟨b, hb, h1⟩ := bind_eq_ok.1 h1
      injection h1 with h1
      by_cases hij : i = j
      · subst hij
        unfold Contents.live at ho
        rw [hj] at ho
        injection ho with ho
        subst ho
        obtain ⟨a', e1, e2⟩ := plain_history cs c1 c' h2 t b (by rw [← h1, List.getElem?_set_self hlt]) hd'
        refine ⟨a', e1, ?_⟩
        unfold callsOn
        rw [if_pos rfl]
        unfold inTurn
        rw [hb, bind_ok]
        exact e2
      · exact same (by rw [← h1, List.getElem?_set_ne hij]; exact hj) (by rw [callsOn, if_neg hij])

/-- **C117.** What a container holds is the result of the calls on it, in their order, from what it held before: nothing that happens to other
containers in between has any influence. -/
theorem C117_own_history {H₀ H : Heap} {m : T} (hd : H₀.addrs.Nodup) (hc : Mal.create E A H₀ = .ok (m, H)) {σ₀ : Store} {pre post : List Cmd}
    {c : Contents} (hp : plainRun E [] pre = .ok c) {c' : Contents} (hp' : plainRun E [] (pre ++ post) = .ok c') {M M' : Machine}
    (hr : runM E A ⟨⟨H, m⟩, σ₀, []⟩ pre = .ok M) (hr' : runM E A M post = .ok M')
    {j : Nat} (hl : c[j]?.join.isSome) (hj : .destroy j ∉ post) :
    ∃ o o', M.load j = .ok o ∧ M'.load j = .ok o' ∧ inTurn E o.arr (callsOn j post) = .ok o'.arr ∧ o'.kind = o.kind ∧ o'.tracked = o.tracked ∧
      M'.ptr j = M.ptr j := by
  rw [plainRun_append, hp, bind_ok] at hp'
  obtain ⟨s1, rfl, g1, t1⟩ := runM_ok (good_start hd hc) (stored_start (σ₀ := σ₀) H m) hp hr
  obtain ⟨s2, rfl, g2, t2⟩ := runM_ok g1 t1 hp' hr'
  cases e : (contents s1)[j]? with
  | none => rw [e] at hl; cases hl
  | some y =>
    cases y with
    | none => rw [e] at hl; cases hl
    | some y =>
      obtain ⟨o, ho, hy⟩ := contents_live e
      obtain ⟨a', e1, e2⟩ := plain_history post _ _ hp' y.1 y.2 e hj
      obtain ⟨o', ho', hy'⟩ := contents_live e1
      injection hy' with hy1 hy2
      subst hy
      injection hy1 with k1 k2
      subst hy2
      refine ⟨o, o', t1.load ho, t2.load ho', e2, k1.symm, k2.symm, ?_⟩
      obtain ⟨l, hl⟩ := runM_ptrs post M M' hr'
      have := (List.getElem?_eq_some_iff.1 (t1.live j o ho).1).1
      unfold Machine.ptr
      rw [← hl, List.getElem?_append_left this]

/-- **C08.** After copying a container, original and copy go their own ways: each holds what the calls on it make of what it held, and the copy started
with the result of the copying function on the contents of the original. -/
theorem C08_independent {H₀ H : Heap} {m : T} (hd : H₀.addrs.Nodup) (hc : Mal.create E A H₀ = .ok (m, H)) {σ₀ : Store} {pre post : List Cmd} {i : Nat}
    {tr : Bool} {c : Contents} (hp : plainRun E [] pre = .ok c) {c' : Contents} (hp' : plainRun E [] (pre ++ .dup i tr :: post) = .ok c')
    {M M' : Machine} (hr : runM E A ⟨⟨H, m⟩, σ₀, []⟩ pre = .ok M) (hr' : runM E A M (.dup i tr :: post) = .ok M')
    (hi : .destroy i ∉ post) (hj : .destroy c.length ∉ post) :
    ∃ o o' k a, M.load i = .ok o ∧ M'.load i = .ok o' ∧ M'.load c.length = .ok k ∧
      inTurn E o.arr (callsOn i post) = .ok o'.arr ∧
      plainDup E o.kind o.arr = .ok a ∧ inTurn E a (callsOn c.length post) = .ok k.arr := by
  rw [plainRun_append, hp, bind_ok] at hp'
  obtain ⟨s1, rfl, g1, t1⟩ := runM_ok (good_start hd hc) (stored_start (σ₀ := σ₀) H m) hp hr
  obtain ⟨s2, rfl, g2, t2⟩ := runM_ok g1 t1 hp' hr'
  obtain ⟨c1, h1, h2⟩ := bind_eq_ok.1 hp'
  rcases live_follows (s := s1) (i := i) with ⟨o, ho, e1, e2⟩ | ⟨e1, e2⟩
  swap
  · unfold plainStep at h1; dsimp only at h1; rw [e2] at h1; cases h1
  unfold plainStep at h1
  dsimp only at h1
  rw [e2, bind_ok] at h1
  obtain ⟨a, ha, h1⟩ := bind_eq_ok.1 h1
  injection h1 with h1
  have hlt : i < (contents s1).length := (List.getElem?_eq_some_iff.1 (live_contents ho)).1
  obtain ⟨a1, u1, u2⟩ := plain_history post c1 _ h2 ⟨o.kind, o.tracked⟩ o.arr
    (by rw [← h1, List.getElem?_append_left hlt]; exact live_contents ho) hi
  obtain ⟨a2, v1, v2⟩ := plain_history post c1 _ h2 _ a (by rw [← h1, List.getElem?_append_right (Nat.le_refl _), Nat.sub_self]; rfl) hj
  obtain ⟨o', ho', hx⟩ := contents_live u1
  obtain ⟨k, hk, hy⟩ := contents_live v1
  injection hx with hx1 hx2
  injection hy with hy1 hy2
  subst hx2; subst hy2
  exact ⟨o, o', k, a, t1.load ho, t2.load ho', t2.load hk, u2, ha, v2⟩

/-- Example: a vector and a string with its copy; the vector is changed twice and moves to another address, the copy is changed, the original is not. -/
example :
    (do
      let (m, H) ← Mal.create malE bumpA ⟨[(7, 3)], 0⟩
      let M ← runM malE bumpA ⟨⟨H, m⟩, fun q => if q = 7 then some (.bytes [some 1]) else none, []⟩
        [.make true (.vec 1 2), .make false (.str [some 104, some 105, some 0]), .dup 1 true, .call 0 (.vecPushBack [some 1, some 2]),
          .call 0 (.vecPushBack [some 3, some 4]), .call 2 (.append [some 33, some 0])]
      let v ← M.load 0
      let s ← M.load 1
      let d ← M.load 2
      .ok ([v.hdr, v.buf, s.hdr, s.buf, d.hdr, d.buf], v.arr.mem, s.arr.mem, d.arr.mem))
      = .ok ([10, 16, 12, 13, 14, 17], [some 1, some 2, some 3, some 4, none, none], [some 104, some 105, some 0],
        [some 104, some 105, some 33, some 0]) := by
  decide +kernel

/-- Example: the two programs of `C117_own_history`; there are two calls on the vector. -/
example : callsOn 0 [.call 0 (.vecPushBack [some 1, some 2]), .call 1 (.append [some 33, some 0]), .call 0 (.vecRemove 0 .fast)] =
    [.vecPushBack [some 1, some 2], .vecRemove 0 .fast] := rfl

end Vita
