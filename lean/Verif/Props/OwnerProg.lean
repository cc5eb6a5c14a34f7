import Verif.Model.OwnerProg
import Verif.Props.OwnerMem
import Verif.Props.OwnerLib
import Verif.Lemmas.StrOps
/-!
# C122: programs that decide by what they read
-/

namespace Vita
open Out Spec Mal Own

seal wadd wsub wmul

variable {E : Env} {A : Allocator} {base : List (Nat × Nat)} {σ₀ : Store}

/-- `FollowsM` for code with a result. -/
def FollowsMP (E : Env) (base : List (Nat × Nat)) (σ₀ : Store) (r : Out (Machine × α)) (c : Out (Contents × α)) : Prop :=
  (r = .exit .alloc ∧ TableRefused E) ∨
  match c with
  | .ok (c, a) => ∃ M s, r = .ok (M, a) ∧ contents s = c ∧ GoodSt s base ∧ Stored M s base σ₀
  | .exit w => r = .exit w
  | .fuel => r = .fuel
  | .ub => True

theorem inMem_follows : ∀ (p : Prog α) (M : Machine) (s : St), GoodSt s base → Stored M s base σ₀ →
    FollowsMP E base σ₀ (p.inMem E A M) (p.plain E (contents s))
  | .out o, M, s, h, hs => by
    cases o with
    | ok a => exact Or.inr ⟨M, s, rfl, rfl, h, hs⟩
    | exit w => exact Or.inr rfl
    | ub => exact Or.inr trivial
    | fuel => exact Or.inr rfl
  | .cmd f k, M, s, h, hs => by
    show FollowsMP E base σ₀ (stepM E A M f >>= fun M => k.inMem E A M) (plainStep E (contents s) f >>= fun c => k.plain E c)
    rcases stepM_follows (E := E) (A := A) h hs f with ⟨h1, ht⟩ | h1
    · exact Or.inl ⟨by rw [h1]; rfl, ht⟩
    · cases hc : plainStep E (contents s) f with
      | ok c =>
        rw [hc] at h1
        obtain ⟨M', s', e, e', hg, hs', -⟩ := h1
        rw [e, ← e']
        exact inMem_follows k M' s' hg hs'
      | exit w => rw [hc] at h1; rw [show stepM E A M f = .exit w from h1]; exact Or.inr rfl
      | ub => exact Or.inr trivial
      | fuel => rw [hc] at h1; rw [show stepM E A M f = .fuel from h1]; exact Or.inr rfl
  | .look i k, M, s, h, hs => by
    show FollowsMP E base σ₀ (M.load i >>= fun o => (k (o.kind, o.arr)).inMem E A M) ((contents s).live i >>= fun o => (k (o.1.kind, o.2)).plain E (contents s))
    rcases live_follows (s := s) (i := i) with ⟨o, hi, -, e2⟩ | ⟨-, e2⟩
    · rw [hs.load hi, e2]
      exact inMem_follows (k (o.kind, o.arr)) M s h hs
    · rw [e2]; exact Or.inr trivial
  | .next k, M, s, h, hs => by
    have hl : (contents s).length = M.ptrs.length := by rw [hs.count]; simp [contents]
    show FollowsMP E base σ₀ ((k M.ptrs.length).inMem E A M) ((k (contents s).length).plain E (contents s))
    rw [hl]
    exact inMem_follows (k M.ptrs.length) M s h hs

/-- The memory holds exactly the containers with the contents `c`: the pointers lead to the contents (`none` for containers that were destroyed), no two
containers have a block in common, and the heap consists of their blocks, those of the tracking allocator and `base`. -/
structure Represents (M : Machine) (c : Contents) (base : List (Nat × Nat)) (σ₀ : Store) : Prop where
  count : M.ptrs.length = c.length
  live : ∀ i t a, c[i]? = some (some (t, a)) → ∃ p b, M.load i = .ok ⟨t.kind, p, b, t.tracked, a⟩
  apart : ∀ i j o o', i ≠ j → c[i]?.join.isSome → c[j]?.join.isSome → M.load i = .ok o → M.load j = .ok o' →
    o.hdr ≠ o'.hdr ∧ o.hdr ≠ o'.buf ∧ o.buf ≠ o'.hdr ∧ o.buf ≠ o'.buf
  rest : ∀ q ∈ base.map (·.1), M.store q = σ₀ q
  memory : ∃ objs, objs.map (·.map fun o => ((⟨o.kind, o.tracked⟩ : Tag), o.arr)) = c ∧ (∀ (i : Nat) (o : Obj), objs[i]? = some (some o) → M.load i = .ok o) ∧
    Owned ⟨M.sys, objs⟩ base

theorem Stored.represents {M : Machine} {s : St} (hs : Stored M s base σ₀) (h : GoodSt s base) : Represents M (contents s) base σ₀ := by
  refine ⟨by rw [hs.count]; simp [contents], fun i t a hi => ?_, fun i j o o' hij hi hj ho ho' => ?_, hs.rest,
    s.objs, rfl, fun i o hi => hs.load hi, by rw [hs.sys]; exact h.owned⟩
  · obtain ⟨o, ho, hx⟩ := contents_live hi
    injection hx with hx1 hx2
    subst hx1; subst hx2
    exact ⟨o.hdr, o.buf, hs.load ho⟩
  · have key : ∀ {k : Nat} {x : Obj}, ((contents s)[k]?.join).isSome → M.load k = .ok x → s.objs[k]? = some (some x) := by
      intro k x hk hl
      cases hck : (contents s)[k]? with
      | none => rw [hck] at hk; cases hk
      | some y =>
        cases y with
        | none => rw [hck] at hk; cases hk
        | some y =>
          obtain ⟨z, hz, -⟩ := contents_live hck
          rw [hs.load hz] at hl
          injection hl with hl
          rw [← hl]; exact hz
    exact stored_apart h (key hi ho) (key hj ho') hij

/-! ### The claims -/

/-- **C122.** A program that chooses what to do by what it reads has the same outcome on the memory as with the contents of each container kept separately
(`plain`): same result, same contents, or ended the same way (unless the tracking allocator cannot extend its table).  The rest of the program finds its
blocks as it left them. -/
theorem C122_run {H₀ H : Heap} {m : T} (hd : H₀.addrs.Nodup) (hc : Mal.create E A H₀ = .ok (m, H)) (σ₀ : Store) (p : Prog α) :
    (p.inMem E A ⟨⟨H, m⟩, σ₀, []⟩ = .exit .alloc ∧ ∃ c, E.allocOk (2 * c * 16) = false) ∨
    match p.plain E [] with
    | .ok (c, r) => ∃ M, p.inMem E A ⟨⟨H, m⟩, σ₀, []⟩ = .ok (M, r) ∧ Represents M c H₀.blocks σ₀
    | .exit w => p.inMem E A ⟨⟨H, m⟩, σ₀, []⟩ = .exit w
    | .fuel => p.inMem E A ⟨⟨H, m⟩, σ₀, []⟩ = .fuel
    | .ub => True := by
  rcases inMem_follows (E := E) (A := A) p _ _ (good_start hd hc) (stored_start (σ₀ := σ₀) H m) with h | h
  · exact Or.inl h
  · right
    have hc : contents ⟨⟨H, m⟩, []⟩ = [] := rfl
    rw [hc] at h
    cases e : p.plain E [] with
    | ok c =>
      rw [e] at h
      obtain ⟨M, s, e1, e2, e3, e4⟩ := h
      exact ⟨M, e1, e2 ▸ e4.represents e3⟩
    | exit w => rw [e] at h; exact h
    | ub => trivial
    | fuel => rw [e] at h; exact h

/-- **C122.** Where the allocator puts the blocks, and what else is in memory, makes no difference: two runs of one program with different allocators and
different heaps, if both end, end with the same result and the same containers. -/
theorem C122_any_allocator {A' : Allocator} {H₀ H H₀' H' : Heap} {m m' : T} (hd : H₀.addrs.Nodup) (hc : Mal.create E A H₀ = .ok (m, H))
    (hd' : H₀'.addrs.Nodup) (hc' : Mal.create E A' H₀' = .ok (m', H')) (σ₀ σ₀' : Store) (p : Prog α) (hub : p.plain E [] ≠ .ub)
    {M M' : Machine} {r r' : α} (hr : p.inMem E A ⟨⟨H, m⟩, σ₀, []⟩ = .ok (M, r)) (hr' : p.inMem E A' ⟨⟨H', m'⟩, σ₀', []⟩ = .ok (M', r')) :
    r = r' ∧ M.ptrs.length = M'.ptrs.length ∧ ∃ c, p.plain E [] = .ok (c, r) ∧
      ∀ i x, c[i]? = some (some x) → ∃ o o', M.load i = .ok o ∧ M'.load i = .ok o' ∧ o.kind = o'.kind ∧ o.tracked = o'.tracked ∧ o.arr = o'.arr := by
  rcases C122_run hd hc σ₀ p with ⟨h, -⟩ | h
  · rw [hr] at h; cases h
  rcases C122_run hd' hc' σ₀' p with ⟨h', -⟩ | h'
  · rw [hr'] at h'; cases h'
  cases e : p.plain E [] with
  | ok c =>
    rw [e] at h h'
    obtain ⟨N, e1, g1⟩ := h
    obtain ⟨N', e1', g1'⟩ := h'
    rw [hr] at e1
    rw [hr'] at e1'
    injection e1 with e1
    injection e1' with e1'
    injection e1 with e1 e2
    injection e1' with e1' e2'
    subst e1; subst e1'; subst e2; subst e2'
    refine ⟨rfl, g1.count.trans g1'.count.symm, c.1, rfl, fun i x hi => ?_⟩
    obtain ⟨p1, b1, q1⟩ := g1.live i x.1 x.2 hi
    obtain ⟨p2, b2, q2⟩ := g1'.live i x.1 x.2 hi
    exact ⟨_, _, q1, q2, rfl, rfl, rfl⟩
  | exit w => rw [e] at h; rw [show p.inMem E A ⟨⟨H, m⟩, σ₀, []⟩ = .exit w from h] at hr; cases hr
  | ub => exact absurd e hub
  | fuel => rw [e] at h; rw [show p.inMem E A ⟨⟨H, m⟩, σ₀, []⟩ = .fuel from h] at hr; cases hr

theorem inMem_ok {H₀ H : Heap} {m : T} (hd : H₀.addrs.Nodup) (hc : Mal.create E A H₀ = .ok (m, H)) {σ₀ : Store} {p : Prog α} {c : Contents} {r : α}
    (hp : p.plain E [] = .ok (c, r)) {M : Machine} {r' : α} (hr : p.inMem E A ⟨⟨H, m⟩, σ₀, []⟩ = .ok (M, r')) :
    ∃ s, contents s = c ∧ GoodSt s H₀.blocks ∧ Stored M s H₀.blocks σ₀ := by
  rcases inMem_follows (E := E) (A := A) p _ _ (good_start hd hc) (stored_start (σ₀ := σ₀) H m) with ⟨h, -⟩ | h
  · rw [hr] at h; cases h
  have hc : contents ⟨⟨H, m⟩, []⟩ = [] := rfl
  rw [hc, hp] at h
  obtain ⟨N, s, e1, e2, e3, e4⟩ := h
  rw [hr] at e1
  injection e1 with e1
  injection e1 with e1 e1'
  subst e1
  exact ⟨s, e2, e3, e4⟩

/-- **C122.** A program that has destroyed all its containers has given back all memory, however it went: the heap is as before, with the two blocks of the
tracking allocator. -/
theorem C122_no_leak {H₀ H : Heap} {m : T} (hd : H₀.addrs.Nodup) (hc : Mal.create E A H₀ = .ok (m, H)) {σ₀ : Store} {p : Prog α} {c : Contents} {r r' : α}
    (hp : p.plain E [] = .ok (c, r)) (hall : ∀ x ∈ c, x = none) {M : Machine} (hr : p.inMem E A ⟨⟨H, m⟩, σ₀, []⟩ = .ok (M, r')) :
    M.sys.heap.blocks.Perm (H₀.blocks ++ [(M.sys.mal.table, M.sys.mal.cap * 16), (M.sys.mal.self, 88)]) ∧ M.sys.mal.objs = [] ∧
      M.sys.mal.stats.bytesAllocated = 0 := by
  obtain ⟨s, rfl, e3, e4⟩ := inMem_ok hd hc hp hr
  have hg := e3.owned
  have hb : blocksOf s.objs = [] := by
    unfold blocksOf
    rw [List.flatMap_eq_nil_iff]
    intro o ho
    have := hall (o.map fun o => (⟨o.kind, o.tracked⟩, o.arr)) (List.mem_map.2 ⟨o, ho, rfl⟩)
    cases o with
    | none => rfl
    | some o => cases this
  rw [e4.sys]
  refine ⟨by simpa [hb] using hg.heap, ?_, by simpa [hb] using hg.bytes⟩
  have := hg.tracked
  rw [hb] at this
  simpa using this

/-- Running `q` on the memory `M` ends like `o` (or memory is refused); if it returns, the memory holds the containers it should, whose contents are related
to the results by `Q`. -/
def MemRunsAs (E : Env) (A : Allocator) (base : List (Nat × Nat)) (σ₀ : Store) (M : Machine) (q : Prog α) (o : Out β) (Q : Contents → α → β → Prop) : Prop :=
  q.inMem E A M = .exit .alloc ∨
  match o with
  | .ok b => ∃ M' r c, q.inMem E A M = .ok (M', r) ∧ Represents M' c base σ₀ ∧ Q c r b
  | .exit w => q.inMem E A M = .exit w
  | .fuel => q.inMem E A M = .fuel
  | .ub => True

theorem MemRunsAs.of {M : Machine} {s : St} (h : GoodSt s base) (hs : Stored M s base σ₀) {q : Prog α} {o : Out β} {Q : Contents → α → β → Prop}
    (hp : EndsLike (q.plain E (contents s)) o Q) : MemRunsAs E A base σ₀ M q o Q := by
  rcases inMem_follows (E := E) (A := A) q M s h hs with ⟨e, -⟩ | hf
  · exact Or.inl e
  · rcases hp with e | hp
    · rw [e] at hf
      exact Or.inl hf
    · cases o with
      | ok b =>
        obtain ⟨c, a, e, hq⟩ := hp
        rw [e] at hf
        obtain ⟨M', s', e', hc, hg, hs'⟩ := hf
        exact Or.inr ⟨M', a, c, e', hc ▸ hs'.represents hg, hq⟩
      | exit w => rw [show q.plain E (contents s) = .exit w from hp] at hf; exact Or.inr hf
      | ub => exact Or.inr trivial
      | fuel => rw [show q.plain E (contents s) = .fuel from hp] at hf; exact Or.inr hf

theorem GoodSt.small {s : St} (h : GoodSt s base) {i : Nat} {k : Tag} {a : Arr} (hi : (contents s)[i]? = some (some (k, a))) : a.mem.length < 2 ^ 56 := by
  obtain ⟨o, ho, hx⟩ := contents_live hi
  injection hx with _ hx
  subst hx
  obtain ⟨rest, hp, -⟩ := blocksOf_live ho
  exact h.holds.sizes _ (hp.mem_iff.2 List.mem_cons_self)

/-- **C122**, a library function in one memory: after any program, `vt_str_split` of a string finds the pieces of C29 in the memory and leaves them there
in a new list of new strings; every container that was there is as before. -/
theorem C122_split {H₀ H : Heap} {m : T} (hd : H₀.addrs.Nodup) (hc : Mal.create E A H₀ = .ok (m, H)) {σ₀ : Store} {pre : Prog α} {c : Contents} {r r' : α}
    (hp : pre.plain E [] = .ok (c, r)) {M : Machine} (hr : pre.inMem E A ⟨⟨H, m⟩, σ₀, []⟩ = .ok (M, r')) {i : Nat} {ts : Bool} {a : Arr}
    (hi : c[i]? = some (some (.str ts, a))) (sep : Mem) (k : Nat) :
    MemRunsAs E A H₀.blocks σ₀ M (Own.split k none i sep) (Str.split E k a sep) (NewList c) := by
  obtain ⟨s, rfl, g, t⟩ := inMem_ok hd hc hp hr
  refine MemRunsAs.of g t ((split_ends hi (g.small hi)).mono ?_)
  rintro c' r (_ | L) hq <;> exact hq

/-- **C122**, `vt_path_dir_list_recurse` in one memory. -/
theorem C122_dir_list_recurse {H₀ H : Heap} {m : T} (hd : H₀.addrs.Nodup) (hc : Mal.create E A H₀ = .ok (m, H)) {σ₀ : Store} {pre : Prog α} {c : Contents}
    {r r' : α} (hp : pre.plain E [] = .ok (c, r)) {M : Machine} (hr : pre.inMem E A ⟨⟨H, m⟩, σ₀, []⟩ = .ok (M, r')) (w : Fs.World) (z : Mem) (ign : Bool)
    (k : Nat) :
    MemRunsAs E A H₀.blocks σ₀ M (Own.dirListRecurse w ign k none z) (Path.dirListRecurse E w ign k [] z) (NewList c) := by
  obtain ⟨s, rfl, g, t⟩ := inMem_ok hd hc hp hr
  refine MemRunsAs.of g t ((dirListRecurse_ends k).mono ?_)
  rintro c' r (_ | L) hq <;> exact hq

/-- `vt_str_append(a, vt_str_z(b))`. -/
def appendOther (i j : Nat) : Prog Unit := do
  let x ← fields j
  call i (.append x.mem)

/-- **C122**, another example for all states: after any program, the text of one string is appended to another.  The first then has both texts, and the
second is found where it was, unchanged. -/
theorem C122_append_other {H₀ H : Heap} {m : T} (hd : H₀.addrs.Nodup) (hc : Mal.create E A H₀ = .ok (m, H)) {σ₀ : Store} {pre : Prog α} {c : Contents}
    {r r' : α} (hp : pre.plain E [] = .ok (c, r)) {M : Machine} (hr : pre.inMem E A ⟨⟨H, m⟩, σ₀, []⟩ = .ok (M, r')) {i j : Nat} (hij : i ≠ j) {ti tj : Tag}
    {a b : Arr} {s t : Text} (hi : c[i]? = some (some (ti, a))) (hj : c[j]? = some (some (tj, b))) (hk : ti.kind = .str) (ha : IsStr a s) (hb : IsStr b t)
    (h0 : t ≠ []) :
    ((appendOther i j).inMem E A M = .exit .alloc ∧ ((∃ c, E.allocOk (2 * c * 16) = false) ∨ E.Refuses (s.length + t.length + 1))) ∨
    ∃ M' o, (appendOther i j).inMem E A M = .ok (M', ()) ∧ M'.load i = .ok o ∧ IsStr o.arr (s ++ t) ∧ M'.load j = M.load j := by
  obtain ⟨st, rfl, g, k⟩ := inMem_ok hd hc hp hr
  obtain ⟨oi, hoi, ei⟩ := contents_live hi
  obtain ⟨oj, hoj, ej⟩ := contents_live hj
  injection ei with ei1 ei2
  injection ej with ej1 ej2
  subst ei1; subst ei2; subst ej1; subst ej2
  have hrun : (appendOther i j).inMem E A M = (stepM E A M (.call i (.append oj.arr.mem)) >>= fun M => .ok (M, ())) := by
    show (M.load j >>= fun o => _) = _
    rw [k.load hoj]
    rfl
  rw [hrun, k.load hoj]
  have hf := stepM_follows (E := E) (A := A) g k (.call i (.append oj.arr.mem))
  have e2 : (contents st).live i = .ok (⟨oi.kind, oi.tracked⟩, oi.arr) := by unfold Contents.live; rw [hi]
  have hpl : plainStep E (contents st) (.call i (.append oj.arr.mem)) =
      (Str.append E oi.arr oj.arr.mem >>= fun x => .ok ((contents st).set i (some (⟨oi.kind, oi.tracked⟩, x)))) := by
    unfold plainStep
    dsimp only
    rw [e2, bind_ok, if_neg (not_not.2 (show Call.kind (.append oj.arr.mem) = oi.kind from hk.symm))]
    rfl
  rw [hpl] at hf
  rcases append_okOr (E := E) ha hb.cstr h0 with ⟨a', e, hs', -⟩ | ⟨e, hre⟩
  · rw [e, bind_ok] at hf
    rcases hf with ⟨hx, ht⟩ | ⟨M', st', e1, e2, e3, e4, e5⟩
    · exact Or.inl ⟨by rw [hx]; rfl, Or.inl ht⟩
    · right
      have hi' : (contents st')[i]? = some (some (⟨oi.kind, oi.tracked⟩, a')) := by
        rw [e2, List.getElem?_set_self (List.getElem?_eq_some_iff.1 hi).1]
      obtain ⟨o', ho', eo⟩ := contents_live hi'
      injection eo with eo1 eo2
      subst eo2
      refine ⟨M', o', by rw [e1]; rfl, e4.load ho', hs', ?_⟩
      rw [e4.load (e5 j oj hoj (fun f hc => hij (by injection hc)) (fun hc => by cases hc))]
  · rw [e] at hf
    rcases hf with ⟨hx, ht⟩ | hf
    · exact Or.inl ⟨by rw [hx]; rfl, Or.inl ht⟩
    · exact Or.inl ⟨by rw [show stepM E A M (.call i (.append oj.arr.mem)) = .exit .alloc from hf]; rfl, Or.inr hre⟩

/-- Appends one string to another as long as the first is shorter than `n`, at most `k` times; the number of rounds. -/
def fillUp (i j n : Nat) : Nat → Prog Nat
  | 0 => .out (.ok 0)
  | k + 1 => do
    let x ← fields i
    if x.len < n then do
      appendOther i j
      let r ← fillUp i j n k
      .out (.ok (r + 1))
    else .out (.ok 0)

/-- Example: "hi" is filled up with "!?" to at least five characters, which takes two rounds; then both strings are destroyed. -/
example :
    (do
      let (m, H) ← Mal.create malE bumpA ⟨[(7, 3)], 0⟩
      let (M, r) ← Prog.inMem malE bumpA (do
        let s ← make true (.str [some 104, some 105, some 0])
        let t ← make false (.str [some 33, some 63, some 0])
        fillUp s t 5 9) ⟨⟨H, m⟩, fun _ => none, []⟩
      let s ← M.load 0
      let t ← M.load 1
      let (N, _) ← Prog.inMem malE bumpA (do discard 0; discard 1) M
      .ok ([s.hdr, s.buf, t.hdr, t.buf], Str.z s.arr, Str.z t.arr, r, N.sys.heap.blocks.length))
      = .ok ([10, 15, 12, 13], .ok [104, 105, 33, 63, 33, 63], .ok [33, 63], 2, 3) := by
  decide +kernel

end Vita
