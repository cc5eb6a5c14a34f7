import Verif.Lemmas.OwnerHeap
/-!
# Property C87: containers own exactly their memory
-/

namespace Vita
open Out Mal Own

seal wadd wsub wmul

/-! ### Specification

A program creates, edits, copies and destroys vectors, pointer lists and strings, in any order and number, each on the system heap or in a tracking
allocator.  Its meaning without any heap is given by the contents of the containers alone. -/

/-- The kind of a container, and whether it was created with the tracking allocator. -/
structure Tag where
  kind : Kind
  tracked : Bool
  deriving DecidableEq

/-- A string. -/
def Tag.str (tr : Bool) : Tag := ⟨.str, tr⟩

/-- A pointer list. -/
def Tag.plist (tr : Bool) : Tag := ⟨.plist, tr⟩

/-- The containers of a program in the order of their creation, without addresses; `none` for those that have been destroyed. -/
abbrev Contents := List (Option (Tag × Arr))

/-- The live container with number `i`. -/
def Contents.live (c : Contents) (i : Nat) : Out (Tag × Arr) :=
  match c[i]? with
  | some (some o) => .ok o
  | _ => .ub

/-- The copying function of a kind of container. -/
def plainDup (E : Env) : Kind → Arr → Out Arr
  | .vec => Vec.dup E
  | .plist => Plist.dup E
  | .str => Str.dup E

/-- One command, contents only. -/
def plainStep (E : Env) (c : Contents) : Cmd → Out Contents
  | .make tr m => do
    let a ← m.run E
    .ok (c ++ [some (⟨m.kind, tr⟩, a)])
  | .makeLike i m => do
    let o ← c.live i
    let a ← m.run E
    .ok (c ++ [some (⟨m.kind, o.1.tracked⟩, a)])
  | .call i f => do
    let o ← c.live i
    if f.kind ≠ o.1.kind then .ub else do
      let a ← f.run E o.2
      .ok (c.set i (some (o.1, a)))
  | .dup i tr => do
    let o ← c.live i
    let a ← plainDup E o.1.kind o.2
    .ok (c ++ [some (⟨o.1.kind, if o.1.kind = .str then o.1.tracked else tr⟩, a)])
  | .destroy i => do
    let _ ← c.live i
    .ok (c.set i none)

/-- A program, contents only. -/
def plainRun (E : Env) : Contents → List Cmd → Out Contents
  | c, [] => .ok c
  | c, f :: fs => do
    let c ← plainStep E c f
    plainRun E c fs

/-- The contents of the containers of a program on the heap. -/
def contents (s : St) : Contents := s.objs.map (·.map fun o => (⟨o.kind, o.tracked⟩, o.arr))

/-- The two blocks of a live container: buffer and header, with the flag of their allocator. -/
def blocksOf (objs : List (Option Obj)) : List (Bool × Nat × Nat) :=
  objs.flatMap fun
    | none => []
    | some o => [(o.tracked, o.buf, o.arr.mem.length), (o.tracked, o.hdr, 56)]

/-! ### Lemmas -/

theorem vtCalloc_granted {E : Env} {n : Nat} {m : Mem} (h : vtCalloc E n = .ok m) : Granted E n ∧ m.length = n := by
  unfold vtCalloc at h
  rw [bind_eq_ok] at h
  obtain ⟨u, h1, h2⟩ := h
  split at h2
  · rename_i ha
    injection h2 with h2
    subst h2
    refine ⟨⟨ha, fun hE => ?_⟩, by simp⟩
    by_contra hn
    rw [decide_eq_false (by omega), cassert_false hE] at h1
    cases h1
  · cases h2

theorem writeN_length {m m' : Mem} {o : Nat} {b : List Byte} (h : writeN m o b = .ok m') : m'.length = m.length :=
  (((fai_writeN (E := ⟨false, fun _ => false, false, by simp⟩) m o b).granted m' h).2.2).symm

theorem vec_create_owned {E : Env} {n es : Nat} {a : Arr} (h : Vec.create E n es = .ok a) :
    Granted E arrStructSize ∧ Granted E (wmul n es) ∧ a.mem.length = wmul n es ∧ a.isView = false := by
  unfold Vec.create at h
  simp only [bind_eq_ok] at h
  obtain ⟨_, -, _, -, _, h1, m, h2, h3⟩ := h
  injection h3 with h3
  subst h3
  exact ⟨(vtCalloc_granted h1).1, (vtCalloc_granted h2).1, (vtCalloc_granted h2).2, rfl⟩

theorem plist_create_owned {E : Env} {n : Nat} {a : Arr} (h : Plist.create E n = .ok a) :
    Granted E arrStructSize ∧ Granted E (wmul n 8) ∧ a.mem.length = wmul n 8 ∧ a.isView = false := by
  unfold Plist.create at h
  simp only [bind_eq_ok] at h
  obtain ⟨_, -, _, h1, m, h2, h3⟩ := h
  injection h3 with h3
  subst h3
  exact ⟨(vtCalloc_granted h1).1, (vtCalloc_granted h2).1, (vtCalloc_granted h2).2, rfl⟩

theorem createLen_owned {E : Env} {n : Nat} {a : Arr} (h : Str.createLen E n = .ok a) :
    Granted E arrStructSize ∧ Granted E (wmul (wadd n 1) 1) ∧ a.mem.length = wmul (wadd n 1) 1 ∧ a.isView = false := by
  unfold Str.createLen at h
  simp only [bind_eq_ok] at h
  obtain ⟨_, -, _, h1, m, h2, m', h3, h4⟩ := h
  injection h4 with h4
  subst h4
  refine ⟨(vtCalloc_granted h1).1, (vtCalloc_granted h2).1, ?_, rfl⟩
  have := ((fai_vtMemset (E := E) m 0 63 n).granted m' h3).2.2
  rw [← (vtCalloc_granted h2).2]
  exact this.symm

theorem str_create_owned {E : Env} {z : Mem} {a : Arr} (h : Str.create E z = .ok a) :
    Granted E arrStructSize ∧ Granted E (Make.bytes (.str z)) ∧ a.mem.length = Make.bytes (.str z) ∧ a.isView = false := by
  unfold Str.create at h
  simp only [bind_eq_ok] at h
  obtain ⟨l, h1, s, h2, h3⟩ := h
  obtain ⟨g1, g2, g3, g4⟩ := createLen_owned h2
  have e : Make.bytes (.str z) = wmul (wadd l 1) 1 := by show (match strlen z with | .ok n => wmul (wadd n 1) 1 | _ => 0) = _; rw [h1]
  rw [e]
  have h5 := ((fai_setN (E := E) s z l).granted a h3).2.2
  have h6 := keeps_setN (E := E) s z l a h3
  refine ⟨g1, g2, ?_, h6.trans g4⟩
  rw [← g3]
  exact h5.symm

theorem make_owned {E : Env} {m : Make} {a : Arr} (h : m.run E = .ok a) :
    Granted E arrStructSize ∧ Granted E m.bytes ∧ a.mem.length = m.bytes ∧ a.isView = false := by
  cases m with
  | vec n es => exact vec_create_owned h
  | plist n => exact plist_create_owned h
  | strLen n => exact createLen_owned h
  | strCapacity n =>
    have h' : Str.createCapacity E n = .ok a := h
    unfold Str.createCapacity at h'
    simp only [bind_eq_ok] at h'
    obtain ⟨_, -, s, h1, h2⟩ := h'
    obtain ⟨g1, g2, g3, g4⟩ := createLen_owned h1
    have h5 := ((fai_strClear (E := E) s).granted a h2).2.2
    have h6 := call_keeps (E := E) .clear s a h2
    refine ⟨g1, g2, ?_, h6.trans g4⟩
    exact h5.symm.trans g3
  | str z => exact str_create_owned h

theorem dup_owned {E : Env} {o : Obj} {a : Arr} (h : (dupOf E o).1 = .ok a) :
    Granted E arrStructSize ∧ Granted E (dupOf E o).2 ∧ a.mem.length = (dupOf E o).2 ∧ a.isView = false := by
  unfold dupOf at *
  cases hk : o.kind with
  | vec =>
    rw [hk] at h
    have h' : Vec.dup E o.arr = .ok a := h
    unfold Vec.dup at h'
    simp only [bind_eq_ok] at h'
    obtain ⟨d, h1, bs, -, m, h2, h3⟩ := h'
    injection h3 with h3
    subst h3
    obtain ⟨g1, g2, g3, g4⟩ := vec_create_owned h1
    exact ⟨g1, g2, (writeN_length h2).trans g3, g4⟩
  | plist =>
    rw [hk] at h
    have h' : Plist.dup E o.arr = .ok a := h
    unfold Plist.dup at h'
    simp only [bind_eq_ok] at h'
    obtain ⟨d, h1, bs, -, m, h2, h3⟩ := h'
    injection h3 with h3
    subst h3
    obtain ⟨g1, g2, g3, g4⟩ := plist_create_owned h1
    exact ⟨g1, g2, (writeN_length h2).trans g3, g4⟩
  | str =>
    rw [hk] at h
    exact str_create_owned h

theorem blocksOf_append (a b : List (Option Obj)) : blocksOf (a ++ b) = blocksOf a ++ blocksOf b := by simp [blocksOf]

theorem split_index {α : Type} {l : List α} {i : Nat} {x : α} (h : l[i]? = some x) : ∃ a b, l = a ++ x :: b ∧ ∀ y, l.set i y = a ++ y :: b := by
  obtain ⟨hi, hx⟩ := List.getElem?_eq_some_iff.1 h
  refine ⟨l.take i, l.drop (i + 1), ?_, fun y => ?_⟩
  · rw [← hx]; simp
  · rw [List.set_eq_take_append_cons_drop, if_pos hi]

theorem blocksOf_live {objs : List (Option Obj)} {i : Nat} {o : Obj} (h : objs[i]? = some (some o)) :
    ∃ rest, (blocksOf objs).Perm ((o.tracked, o.buf, o.arr.mem.length) :: (o.tracked, o.hdr, 56) :: rest) ∧
      (blocksOf (objs.set i none)).Perm rest ∧
      ∀ o' : Obj, (blocksOf (objs.set i (some o'))).Perm ((o'.tracked, o'.buf, o'.arr.mem.length) :: (o'.tracked, o'.hdr, 56) :: rest) := by
  obtain ⟨a, b, e1, e2⟩ := split_index h
  have key : ∀ o' : Obj, (blocksOf (a ++ some o' :: b)).Perm
      ((o'.tracked, o'.buf, o'.arr.mem.length) :: (o'.tracked, o'.hdr, 56) :: (blocksOf a ++ blocksOf b)) := by
    intro o'
    rw [blocksOf_append, show blocksOf (some o' :: b) = (o'.tracked, o'.buf, o'.arr.mem.length) :: (o'.tracked, o'.hdr, 56) :: blocksOf b from rfl]
    exact List.perm_middle.trans (List.Perm.cons _ List.perm_middle)
  refine ⟨blocksOf a ++ blocksOf b, ?_, ?_, fun o' => ?_⟩
  · rw [e1]; exact key o
  · rw [e2, blocksOf_append]; exact List.Perm.refl _
  · rw [e2]; exact key o'

/-- The state of a program between two commands. -/
structure GoodSt (s : St) (base : List (Nat × Nat)) : Prop where
  holds : HeapHolds s.sys (blocksOf s.objs) base
  view : ∀ o, some o ∈ s.objs → o.arr.isView = false

/-- The heap version follows the version without a heap: it ends in the same way, except that the table of the tracking allocator may be refused. -/
def Follows (E : Env) (base : List (Nat × Nat)) (r : Out St) (c : Out Contents) : Prop :=
  (r = .exit .alloc ∧ TableRefused E) ∨
  match c with
  | .ok c => ∃ s, r = .ok s ∧ contents s = c ∧ GoodSt s base
  | .exit w => r = .exit w
  | .ub => r = .ub
  | .fuel => r = .fuel

theorem Follows.bind {E : Env} {base : List (Nat × Nat)} {r : Out St} {c : Out Contents} {k : St → Out St} {k' : Contents → Out Contents}
    (h : Follows E base r c) (hk : ∀ s, GoodSt s base → Follows E base (k s) (k' (contents s))) : Follows E base (r >>= k) (c >>= k') := by
  rcases h with ⟨h, ht⟩ | h
  · exact Or.inl ⟨by rw [h]; rfl, ht⟩
  · cases c with
    | ok c =>
      obtain ⟨s, e, hc, hg⟩ := h
      rw [e, ← hc]
      exact hk s hg
    | exit w => rw [show r = .exit w from h]; exact Or.inr rfl
    | ub => rw [show r = .ub from h]; exact Or.inr rfl
    | fuel => rw [show r = .fuel from h]; exact Or.inr rfl

/-- First something on the contents, the same in both versions. -/
theorem Follows.pure {E : Env} {base : List (Nat × Nat)} {α : Type} {r : Out α} {k : α → Out St} {k' : α → Out Contents}
    (hk : ∀ a, r = .ok a → Follows E base (k a) (k' a)) : Follows E base (r >>= k) (r >>= k') := by
  cases r with
  | ok a => exact hk a rfl
  | exit w => exact Or.inr rfl
  | ub => exact Or.inr rfl
  | fuel => exact Or.inr rfl

theorem live_follows {s : St} {i : Nat} : (∃ o, s.objs[i]? = some (some o) ∧ s.live i = .ok o ∧ (contents s).live i = .ok (⟨o.kind, o.tracked⟩, o.arr)) ∨
    (s.live i = .ub ∧ (contents s).live i = .ub) := by
  unfold St.live Contents.live contents
  rw [List.getElem?_map]
  rcases h : s.objs[i]? with _ | (_ | o)
  · right; simp
  · right; simp
  · left; exact ⟨o, by simp⟩

theorem new_follows {E : Env} {A : Allocator} {s : St} {base : List (Nat × Nat)} {tr : Bool} {kind : Kind} {bytes : Nat} {a : Arr}
    (h : GoodSt s base) (ho : Granted E arrStructSize ∧ Granted E bytes ∧ a.mem.length = bytes ∧ a.isView = false) :
    Follows E base (Own.new E A s.sys tr kind bytes a >>= fun r => .ok ⟨r.1, s.objs ++ [some r.2]⟩) (.ok (contents s ++ [some (⟨kind, tr⟩, a)])) := by
  obtain ⟨g1, g2, g3, g4⟩ := ho
  unfold Own.new
  rcases h.holds.alloc (A := A) tr g1 with ⟨e, ht⟩ | ⟨S1, hd, e, h1⟩
  · exact Or.inl ⟨by rw [e]; rfl, ht⟩
  simp only [e, bind_ok]
  rcases h1.alloc (A := A) tr g2 with ⟨e, ht⟩ | ⟨S2, b, e, h2⟩
  · exact Or.inl ⟨by rw [e]; rfl, ht⟩
  simp only [e, bind_ok]
  refine Or.inr ⟨_, rfl, by simp [contents], ⟨?_, ?_⟩⟩
  · rw [blocksOf_append]
    refine h2.perm ?_
    rw [← g3]
    exact List.perm_append_comm (l₁ := [_, _])
  · intro o ho
    rcases List.mem_append.1 ho with ho | ho
    · exact h.view o ho
    · simp at ho; subst ho; exact g4

theorem step_follows {E : Env} {A : Allocator} {s : St} {base : List (Nat × Nat)} (h : GoodSt s base) (c : Cmd) :
    Follows E base (step E A s c) (plainStep E (contents s) c) := by
  cases c with
  | make tr m =>
    exact Follows.pure fun a ha => new_follows h (make_owned ha)
  | makeLike i m =>
    unfold step plainStep
    dsimp only
    rcases live_follows (s := s) (i := i) with ⟨o, hi, e1, e2⟩ | ⟨e1, e2⟩
    swap
    · rw [e1, e2]; exact Or.inr rfl
    rw [e1, e2]
    simp only [bind_ok]
    exact Follows.pure fun a ha => new_follows h (make_owned ha)
  | call i f =>
    unfold step plainStep
    dsimp only
    rcases live_follows (s := s) (i := i) with ⟨o, hi, e1, e2⟩ | ⟨e1, e2⟩
    swap
    · rw [e1, e2]; exact Or.inr rfl
    rw [e1, e2]
    simp only [bind_ok]
    by_cases hk : f.kind = o.kind
    swap
    · rw [if_pos hk, if_pos hk]; exact Or.inr rfl
    rw [if_neg (not_not.2 hk), if_neg (not_not.2 hk)]
    refine Follows.pure fun a ha => ?_
    obtain ⟨g1, g2, g3⟩ := (call_fai (E := E) f o.arr).granted a ha
    obtain ⟨rest, p1, -, p3⟩ := blocksOf_live hi
    have hv := call_keeps (E := E) f o.arr a ha
    rcases perform_ok (A := A) o.tracked (f.reqs E o.arr) s.sys o.buf _ (h.holds.perm p1) g1 g2 with ⟨e, ht⟩ | ⟨S1, q, e, h1⟩
    · exact Or.inl ⟨by rw [e]; rfl, ht⟩
    simp only [e, bind_ok]
    refine Or.inr ⟨_, rfl, ?_, ⟨?_, ?_⟩⟩
    · simp [contents, List.map_set]
    · refine h1.perm (List.Perm.symm ((p3 _).trans ?_))
      rw [show reqFinal o.arr.mem.length (f.reqs E o.arr) = a.mem.length from g3]
    · intro o' ho
      rcases List.mem_or_eq_of_mem_set ho with ho | ho
      · exact h.view o' ho
      · injection ho with ho
        subst ho
        exact hv.trans (h.view o (List.mem_of_getElem? hi))
  | dup i tr =>
    unfold step plainStep
    dsimp only
    rcases live_follows (s := s) (i := i) with ⟨o, hi, e1, e2⟩ | ⟨e1, e2⟩
    swap
    · rw [e1, e2]; exact Or.inr rfl
    rw [e1, e2]
    simp only [bind_ok]
    have hd : plainDup E o.kind o.arr = (dupOf E o).1 := by
      unfold dupOf; cases o.kind <;> rfl
    rw [hd]
    exact Follows.pure fun a ha => new_follows h (dup_owned ha)
  | destroy i =>
    unfold step plainStep
    dsimp only
    rcases live_follows (s := s) (i := i) with ⟨o, hi, e1, e2⟩ | ⟨e1, e2⟩
    swap
    · rw [e1, e2]; exact Or.inr rfl
    rw [e1, e2]
    simp only [bind_ok]
    obtain ⟨rest, p1, p2, -⟩ := blocksOf_live hi
    have hv := h.view o (List.mem_of_getElem? hi)
    obtain ⟨S1, f1, h1⟩ := (h.holds.perm p1).free (E := E)
    obtain ⟨S2, f2, h2⟩ := h1.free (E := E)
    have hde : Own.destroy E s.sys o = .ok S2 := by
      unfold Own.destroy
      rw [if_neg (by rw [hv]; simp), f1, bind_ok, f2]
    rw [hde, bind_ok]
    refine Or.inr ⟨_, rfl, ?_, ⟨?_, ?_⟩⟩
    · simp [contents, List.map_set]
    · exact h2.perm p2.symm
    · intro o' ho
      rcases List.mem_or_eq_of_mem_set ho with ho | ho
      · exact h.view o' ho
      · cases ho

theorem run_follows {E : Env} {A : Allocator} {base : List (Nat × Nat)} : ∀ (cs : List Cmd) (s : St), GoodSt s base →
    Follows E base (run E A s cs) (plainRun E (contents s) cs)
  | [], _, h => Or.inr ⟨_, rfl, rfl, h⟩
  | c :: cs, _, h => Follows.bind (step_follows h c) fun _ h' => run_follows cs _ h'

/-! ### C87 -/

/-- What a program owns: the heap consists of the blocks of the live containers (buffer and header of each), the blocks the program had before, and
the two blocks of the tracking allocator; no two of them share an address, and the tracking allocator records exactly the blocks of its containers
and their total size. -/
structure Owned (s : St) (base : List (Nat × Nat)) : Prop where
  heap : s.sys.heap.blocks.Perm ((blocksOf s.objs).map (·.2) ++ base ++ [(s.sys.mal.table, s.sys.mal.cap * 16), (s.sys.mal.self, 88)])
  distinct : (s.sys.heap.blocks.map (·.1)).Nodup
  tracked : s.sys.mal.objs.Perm (((blocksOf s.objs).filter (·.1)).map (·.2))
  bytes : s.sys.mal.stats.bytesAllocated = ((((blocksOf s.objs).filter (·.1)).map (·.2)).map (·.2)).sum % 2 ^ 64

theorem GoodSt.owned {s : St} {base : List (Nat × Nat)} (h : GoodSt s base) : Owned s base :=
  ⟨h.holds.heap, h.holds.nodup, h.holds.objs, h.holds.bytes⟩

theorem good_start {E : Env} {A : Allocator} {H₀ H : Heap} {m : T} (hd : H₀.addrs.Nodup) (hc : Mal.create E A H₀ = .ok (m, H)) :
    GoodSt ⟨⟨H, m⟩, []⟩ H₀.blocks := ⟨HeapHolds.create hd hc, by simp⟩

/-- **C87.** Any program of container calls, on the system heap and in a tracking allocator, behaves like its contents alone, allocators included (except that memory for
the table of the allocator may be refused): if the calls on the contents return, then no block is freed twice or used after it was freed, and at the
end exactly the memory of the live containers is held; if they end the program, it ends in the same way, and it is undefined only if a call on the
contents is (or a container is used after its destruction). -/
theorem C87_run {E : Env} {A : Allocator} {H₀ H : Heap} {m : T} (hd : H₀.addrs.Nodup) (hc : Mal.create E A H₀ = .ok (m, H)) (cs : List Cmd) :
    (run E A ⟨⟨H, m⟩, []⟩ cs = .exit .alloc ∧ ∃ c, E.allocOk (2 * c * 16) = false) ∨
    match plainRun E [] cs with
    | .ok c => ∃ s, run E A ⟨⟨H, m⟩, []⟩ cs = .ok s ∧ contents s = c ∧ Owned s H₀.blocks
    | .exit w => run E A ⟨⟨H, m⟩, []⟩ cs = .exit w
    | .ub => run E A ⟨⟨H, m⟩, []⟩ cs = .ub
    | .fuel => run E A ⟨⟨H, m⟩, []⟩ cs = .fuel := by
  have h := run_follows (E := E) (A := A) cs _ (good_start hd hc)
  rcases h with h | h
  · exact Or.inl h
  · right
    have hc : contents ⟨⟨H, m⟩, []⟩ = [] := rfl
    rw [hc] at h
    cases e : plainRun E [] cs with
    | ok c =>
      rw [e] at h
      obtain ⟨s, h1, h2, h3⟩ := h
      exact ⟨s, h1, h2, h3.owned⟩
    | exit w => rw [e] at h; exact h
    | ub => rw [e] at h; exact h
    | fuel => rw [e] at h; exact h

theorem run_good {E : Env} {A : Allocator} {H₀ H : Heap} {m : T} (hd : H₀.addrs.Nodup) (hc : Mal.create E A H₀ = .ok (m, H)) {cs : List Cmd} {s : St}
    (hr : run E A ⟨⟨H, m⟩, []⟩ cs = .ok s) : GoodSt s H₀.blocks := by
  rcases run_follows (E := E) (A := A) cs _ (good_start hd hc) with ⟨h, -⟩ | h
  · rw [hr] at h; cases h
  · cases e : plainRun E (contents ⟨⟨H, m⟩, []⟩) cs with
    | ok c =>
      rw [e] at h
      obtain ⟨s', h1, -, h3⟩ := h
      rw [hr] at h1
      injection h1 with h1
      rw [h1]; exact h3
    | exit w => rw [e] at h; have h' : run E A ⟨⟨H, m⟩, []⟩ cs = .exit w := h; rw [hr] at h'; cases h'
    | ub => rw [e] at h; have h' : run E A ⟨⟨H, m⟩, []⟩ cs = .ub := h; rw [hr] at h'; cases h'
    | fuel => rw [e] at h; have h' : run E A ⟨⟨H, m⟩, []⟩ cs = .fuel := h; rw [hr] at h'; cases h'

/-- **C87.** A program that destroys every container it created leaks nothing: the heap is as before (with the two blocks of the tracking allocator), the
allocator tracks nothing and reports zero bytes. -/
theorem C87_no_leak {E : Env} {A : Allocator} {H₀ H : Heap} {m : T} (hd : H₀.addrs.Nodup) (hc : Mal.create E A H₀ = .ok (m, H)) {cs : List Cmd} {s : St}
    (hr : run E A ⟨⟨H, m⟩, []⟩ cs = .ok s) (hall : ∀ o ∈ s.objs, o = none) :
    s.sys.heap.blocks.Perm (H₀.blocks ++ [(s.sys.mal.table, s.sys.mal.cap * 16), (s.sys.mal.self, 88)]) ∧ s.sys.mal.objs = [] ∧
      s.sys.mal.stats.bytesAllocated = 0 := by
  have hg := (run_good hd hc hr).owned
  have hb : blocksOf s.objs = [] := by
    unfold blocksOf
    rw [List.flatMap_eq_nil_iff]
    intro o ho
    rw [hall o ho]
  refine ⟨by simpa [hb] using hg.heap, ?_, by simpa [hb] using hg.bytes⟩
  have := hg.tracked
  rw [hb] at this
  simpa using this

/-- Destroying the allocator leaves the blocks that are not in it. -/
theorem HeapHolds.destroy {S : Sys} {own : List (Bool × Nat × Nat)} {base : List (Nat × Nat)} (h : HeapHolds S own base) :
    ∃ H', Mal.destroy S.heap S.mal = .ok H' ∧ H'.blocks.Perm ((own.filter (!·.1)).map (·.2) ++ base) := by
  have hsplit : (own.map (·.2)).Perm (((own.filter (·.1)).map (·.2)) ++ ((own.filter (!·.1)).map (·.2))) := by
    rw [← List.map_append]
    exact (List.filter_append_perm (·.1) own).symm.map _
  have hp : S.heap.blocks.Perm (S.mal.objs ++ ((S.mal.table, S.mal.cap * objSize) :: (S.mal.self, structSize) ::
      (((own.filter (!·.1)).map (·.2)) ++ base))) := by
    refine h.heap.trans ?_
    refine (((hsplit.append_right _).append_right _)).trans ?_
    rw [List.append_assoc, List.append_assoc, ← List.append_assoc (bs := base)]
    refine List.Perm.append h.objs.symm ?_
    exact List.perm_append_comm (l₂ := [_, _])
  have h0 : 0 ∉ S.mal.objs.map (·.1) := by
    intro g
    have g := (h.objs.map (·.1)).mem_iff.1 g
    simp only [List.mem_map, List.mem_filter] at g
    obtain ⟨x, ⟨y, ⟨hy, -⟩, rfl⟩, hx⟩ := g
    exact h.nz.2.2 y hy hx
  obtain ⟨H1, e1, d1, p1⟩ := freeAll_ok S.mal.objs S.heap _ h.nodup h0 hp
  obtain ⟨H2, e2, d2, p2⟩ := hFree_ok d1 h.nz.1 p1
  obtain ⟨H3, e3, d3, p3⟩ := hFree_ok d2 h.nz.2.1 p2
  refine ⟨H3, ?_, p3⟩
  rw [Mal.destroy, e1, bind_ok, e2, bind_ok, e3]

/-- **C87.** Destroying the tracking allocator at any time releases exactly the containers that were created in it: what remains are the containers on the
system heap and the blocks the program had before. -/
theorem C87_destroy_allocator {E : Env} {A : Allocator} {H₀ H : Heap} {m : T} (hd : H₀.addrs.Nodup) (hc : Mal.create E A H₀ = .ok (m, H))
    {cs : List Cmd} {s : St} (hr : run E A ⟨⟨H, m⟩, []⟩ cs = .ok s) :
    ∃ H', Mal.destroy s.sys.heap s.sys.mal = .ok H' ∧ H'.blocks.Perm (((blocksOf s.objs).filter (!·.1)).map (·.2) ++ H₀.blocks) :=
  (run_good hd hc hr).holds.destroy

theorem free_heap {E : Env} {S S' : Sys} {b : Bool} {q : Nat} (hq : q ≠ 0) (h : Own.free E S b q = .ok S') :
    S'.heap.blocks = S.heap.blocks.filter (·.1 ≠ q) := by
  have key : ∀ H', hFree S.heap q = .ok H' → H'.blocks = S.heap.blocks.filter (·.1 ≠ q) := by
    intro H' e
    unfold hFree at e
    rw [if_neg hq] at e
    split at e
    · cases e
    · injection e with e; rw [← e]
  unfold Own.free at h
  cases b with
  | false =>
    simp only [Bool.false_eq_true, if_false, bind_eq_ok] at h
    obtain ⟨H', e, h⟩ := h
    injection h with h; rw [← h]
    exact key H' e
  | true =>
    unfold Mal.free at h
    simp only [if_true, bind_eq_ok] at h
    obtain ⟨r, ⟨_, -, x, -, H', e, h1⟩, h⟩ := h
    injection h1 with h1
    rw [← h1] at h
    injection h with h; rw [← h]
    exact key H' e

theorem free_dangling {E : Env} {S : Sys} {b : Bool} {q : Nat} (hq : q ≠ 0) (h : q ∉ S.heap.addrs) : Own.free E S b q = .ub := by
  have key : hFree S.heap q = .ub := by unfold hFree; rw [if_neg hq, if_pos h]
  unfold Own.free
  cases b with
  | false => simp [key]
  | true =>
    unfold Mal.free
    have hne : (q != 0) = true := by simpa using hq
    simp only [if_true, hne, dassert_true, bind_ok]
    have hr : Mal.remove S.mal q = .ub ∨ ∃ x, Mal.remove S.mal q = .ok x := by
      unfold Mal.remove
      repeat' split
      all_goals first | exact Or.inl rfl | exact Or.inr ⟨_, rfl⟩
    rcases hr with hr | ⟨x, hr⟩
    · rw [hr]; rfl
    · rw [hr]; simp [key]

/-- **C87.** Destroying a container twice is undefined behaviour: the library does not catch it, in either build and for either allocator. -/
theorem C87_double_destroy {E : Env} {A : Allocator} {H₀ H : Heap} {m : T} (hd : H₀.addrs.Nodup) (hc : Mal.create E A H₀ = .ok (m, H))
    {cs : List Cmd} {s : St} (hr : run E A ⟨⟨H, m⟩, []⟩ cs = .ok s) {i : Nat} {o : Obj} (hi : s.objs[i]? = some (some o)) :
    ∃ S', Own.destroy E s.sys o = .ok S' ∧ Own.destroy E S' o = .ub := by
  have h := run_good hd hc hr
  obtain ⟨rest, p1, -, -⟩ := blocksOf_live hi
  have hv := h.view o (List.mem_of_getElem? hi)
  have h0 := h.holds.perm p1
  obtain ⟨S1, f1, h1⟩ := h0.free (E := E)
  obtain ⟨S2, f2, h2⟩ := h1.free (E := E)
  have hb : o.buf ≠ 0 := h0.nz.2.2 _ (List.mem_cons_self ..)
  have hh : o.hdr ≠ 0 := h1.nz.2.2 _ (List.mem_cons_self ..)
  refine ⟨S2, ?_, ?_⟩
  · unfold Own.destroy
    rw [if_neg (by rw [hv]; simp), f1, bind_ok, f2]
  · unfold Own.destroy
    rw [if_neg (by rw [hv]; simp), free_dangling hb, bind_ub]
    unfold Heap.addrs
    rw [free_heap hh f2, mem_map_filter_ne, free_heap hb f1, mem_map_filter_ne]
    simp

/-- **C87.** The memory requests of every call agree with its effect on the contents: if it returns, all its requests were granted and the buffer has the
size last requested; if it ends because memory was refused, one of its requests was refused (or asked for nothing). -/
theorem C87_requests {E : Env} (c : Call) (a : Arr) :
    (∀ b, c.run E a = .ok b → (∀ k ∈ reqSizes (c.reqs E a), E.allocOk k = true) ∧ reqFinal a.mem.length (c.reqs E a) = b.mem.length) ∧
    (c.run E a = .exit .alloc → ∃ k ∈ reqSizes (c.reqs E a), E.allocOk k = false ∨ k = 0) :=
  ⟨fun b h => ⟨((call_fai c a).granted b h).1, ((call_fai c a).granted b h).2.2⟩, (call_fai c a).refused⟩

/-! ### Foreign buffers -/

/-- **C87, `vt_str_take_ownership`.** The string takes over a block of the system heap.  Destroying the string releases the block and the header, also
if the header is in the tracking allocator. -/
theorem C87_take_ownership {E : Env} {A : Allocator} {S : Sys} {own : List (Bool × Nat × Nat)} {base : List (Nat × Nat)} {p n : Nat} {z : Mem}
    (h : HeapHolds S ((false, p, n) :: own) base) (tr : Bool) {S' : Sys} {o : Obj} (e : Own.take E A S tr p z = .ok (S', o)) :
    ∃ S'', Own.destroy E S' o = .ok S'' ∧ S''.heap.blocks.Perm (own.map (·.2) ++ base ++
        [(S''.mal.table, S''.mal.cap * 16), (S''.mal.self, 88)]) := by
  unfold Own.take at e
  simp only [bind_eq_ok] at e
  obtain ⟨arr, h1, ⟨S1, hdr⟩, h2, h3⟩ := e
  injection h3 with h3
  obtain ⟨rfl, rfl⟩ := Prod.mk.inj h3
  have hg : Granted E arrStructSize ∧ arr.isView = false := by
    unfold Str.takeOwnership at h1
    simp only [bind_eq_ok] at h1
    obtain ⟨_, g1, l, -, g2⟩ := h1
    injection g2 with g2
    subst g2
    exact ⟨(vtCalloc_granted g1).1, rfl⟩
  rcases h.alloc (A := A) tr hg.1 with ⟨e, -⟩ | ⟨S2, q, e, hh⟩
  · rw [e] at h2; cases h2
  rw [e] at h2
  injection h2 with h2
  obtain ⟨rfl, rfl⟩ := Prod.mk.inj h2
  have hb := hh.perm (own' := (false, p, n) :: (tr, q, arrStructSize) :: own) (List.Perm.swap _ _ _)
  unfold Own.destroy
  rw [if_neg (by rw [hg.2]; simp)]
  cases tr with
  | false =>
    obtain ⟨S3, f1, g1⟩ := hb.free (E := E)
    obtain ⟨S4, f2, g2⟩ := g1.free (E := E)
    exact ⟨S4, by rw [f1, bind_ok, f2], g2.heap⟩
  | true =>
    -- the allocator does not know the buffer, but releases it
    obtain ⟨hq0, hqH, hp⟩ := hb.block
    have hnot : p ∉ S2.mal.objs.map (·.1) := by
      intro g
      have g := (hb.objs.map (·.1)).mem_iff.1 g
      simp only [filter_cons_flag, Bool.false_eq_true, if_false, if_true] at g
      have nd := (hb.heap.map Prod.fst).nodup_iff.1 hb.nodup
      simp only [List.map_cons, List.cons_append, List.nodup_cons] at nd
      refine nd.1 ?_
      simp only [List.map_append, List.mem_cons, List.mem_append, List.append_assoc]
      rw [List.map_cons] at g
      rcases List.mem_cons.1 g with g | g
      · exact Or.inl g
      · right; left
        exact ((List.filter_sublist.map _).map _).subset g
    have hrem : Mal.remove S2.mal p = .ok (S2.mal, 0) := by
      unfold Mal.remove
      have hf : ∀ (l : List (Nat × Nat)) (i : Nat), p ∉ l.map (·.1) → findLoop l p i = none := by
        intro l
        induction l with
        | nil => intro i _; rfl
        | cons x l ih =>
          intro i hx
          simp only [List.map_cons, List.mem_cons, not_or] at hx
          rw [findLoop, if_neg (fun e => hx.1 e.symm), ih _ hx.2]
      split
      · rw [hf _ _ hnot]
      · rfl
    have hfree : hFree S2.heap p = .ok ⟨S2.heap.blocks.filter (·.1 ≠ p), S2.heap.tick + 1⟩ := by
      unfold hFree
      rw [if_neg hq0, if_neg (not_not.2 hqH)]
    have hne : (p != 0) = true := by simpa using hq0
    have f1 : Own.free E S2 true p = .ok ⟨⟨S2.heap.blocks.filter (·.1 ≠ p), S2.heap.tick + 1⟩, S2.mal⟩ := by
      unfold Own.free Mal.free
      simp only [if_true, hne, dassert_true, bind_ok, hrem, hfree]
      rfl
    have g1 : HeapHolds ⟨⟨S2.heap.blocks.filter (·.1 ≠ p), S2.heap.tick + 1⟩, S2.mal⟩ ((true, q, arrStructSize) :: own) base :=
      { objs := by simpa using hb.objs, heap := hp, nodup := nodup_filter _ hb.nodup,
        nz := ⟨hb.nz.1, hb.nz.2.1, fun x hx => hb.nz.2.2 x (List.mem_cons_of_mem _ hx)⟩, len := hb.len, cap := hb.cap,
        sizes := fun x hx => hb.sizes x (List.mem_cons_of_mem _ hx), bytes := by simpa using hb.bytes }
    obtain ⟨S4, f2, g2⟩ := g1.free (E := E)
    exact ⟨S4, by rw [f1, bind_ok, f2], g2.heap⟩

/-- **C87, disagreement.** A string in a tracking allocator that took over a block is not released with that allocator: whenever the allocator is destroyed, the block stays
allocated, although the string is gone. -/
theorem C87_take_ownership_not_tracked {E : Env} {A : Allocator} {S : Sys} {own : List (Bool × Nat × Nat)} {base : List (Nat × Nat)} {p n : Nat} {z : Mem}
    (h : HeapHolds S ((false, p, n) :: own) base) {S' : Sys} {o : Obj} (e : Own.take E A S true p z = .ok (S', o)) :
    o.tracked = true ∧ o.buf = p ∧ ∃ H', Mal.destroy S'.heap S'.mal = .ok H' ∧ (p, n) ∈ H'.blocks ∧ (o.hdr, 56) ∉ H'.blocks := by
  unfold Own.take at e
  simp only [bind_eq_ok] at e
  obtain ⟨arr, h1, ⟨S1, hdr⟩, h2, h3⟩ := e
  injection h3 with h3
  obtain ⟨rfl, rfl⟩ := Prod.mk.inj h3
  have hg : Granted E arrStructSize := by
    unfold Str.takeOwnership at h1
    simp only [bind_eq_ok] at h1
    obtain ⟨_, g1, l, -, g2⟩ := h1
    exact (vtCalloc_granted g1).1
  rcases h.alloc (A := A) true hg with ⟨e, -⟩ | ⟨S2, q, e, hh⟩
  · rw [e] at h2; cases h2
  rw [e] at h2
  injection h2 with h2
  obtain ⟨rfl, rfl⟩ := Prod.mk.inj h2
  obtain ⟨H', e', hp⟩ := hh.destroy
  refine ⟨rfl, rfl, H', e', hp.mem_iff.2 (by simp), fun hq => ?_⟩
  have hq := hp.mem_iff.1 hq
  have nd := (hh.heap.map Prod.fst).nodup_iff.1 hh.nodup
  simp only [List.map_cons, List.cons_append, List.nodup_cons, List.map_append, List.mem_cons, List.mem_append, not_or, List.map_map] at nd
  rcases List.mem_append.1 hq with g | g
  · obtain ⟨x, hx, ex⟩ := List.mem_map.1 g
    have hx := (List.mem_filter.1 hx)
    rcases List.mem_cons.1 hx.1 with rfl | hx1
    · simp at hx
    · rcases List.mem_cons.1 hx1 with rfl | hx2
      · exact nd.1.1 (congrArg Prod.fst ex).symm
      · exact nd.1.2.1.1 (List.mem_map.2 ⟨x, hx2, congrArg Prod.fst ex⟩)
  · exact nd.1.2.1.2 (List.mem_map.2 ⟨_, g, rfl⟩)

/-- The calls of the theorem. -/
example :
    (do
      let (m, H) ← Mal.create malE bumpA ⟨[(7, 3)], 0⟩
      let (S, o) ← Own.take malE bumpA ⟨H, m⟩ true 7 [some 104, some 105, some 0]
      let H' ← Mal.destroy S.heap S.mal
      .ok (o.buf, o.tracked, H'.blocks)) = .ok (7, true, [(7, 3)]) := by
  decide +kernel

/-- **C87, disagreement: `vt_str_split_between`.** Without a destination and with both delimiters present, the left one not before the right one, the
function returns NULL and loses the two blocks of the string it created. -/
theorem C87_split_between_leaks {E : Env} {A : Allocator} {S : Sys} {own : List (Bool × Nat × Nat)} {base : List (Nat × Nat)} {z zl zr : Mem} {l r : Nat}
    (h : HeapHolds S own base) (hl : strstrAt z 0 zl = .ok (some l)) (hr : strstrAt z 0 zr = .ok (some r)) (hlr : r ≤ l)
    (h1 : E.allocOk 56 = true) (h2 : E.allocOk 17 = true) :
    ∃ S' p q, Own.splitBetween E A S z zl zr = .ok (S', none) ∧
      S'.heap.blocks.Perm ((p, 17) :: (q, 56) :: own.map (·.2) ++ base ++ [(S'.mal.table, S'.mal.cap * 16), (S'.mal.self, 88)]) := by
  have hb : Make.bytes (.strCapacity defaultInit) = 17 := by decide +kernel
  have w : wmul (wadd defaultInit 1) 1 = 17 := by decide +kernel
  have hcap : ∃ a, Str.createCapacity E defaultInit = .ok a ∧ ∃ b, Str.clear a = .ok b := by
    unfold Str.createCapacity Str.createLen
    rw [w]
    simp only [vtCalloc, show decide (defaultInit > 0) = true from rfl, show decide (arrStructSize > 0) = true from rfl,
      show decide (17 > 0) = true from rfl, cassert_true, dassert_true, bind_ok]
    rw [show arrStructSize = 56 from rfl, if_pos h1, bind_ok, if_pos h2, bind_ok]
    exact ⟨_, rfl, _, rfl⟩
  obtain ⟨a, ha, b, hb2⟩ := hcap
  unfold Own.splitBetween
  rw [hl, bind_ok]
  simp only [hr, bind_ok, ha, Own.new, hb]
  have n1 : Granted E 56 := ⟨h1, fun _ => by decide⟩
  rw [show arrStructSize = 56 from rfl]
  have n2 : Granted E 17 := ⟨h2, fun _ => by decide⟩
  rcases h.alloc (A := A) false n1 with ⟨e, -⟩ | ⟨S1, q, e, g1⟩
  · exfalso
    unfold Own.alloc hCalloc at e
    simp only [Bool.false_eq_true, if_false, n1.check.1, bind_ok, if_pos h1] at e
    cases e
  rcases g1.alloc (A := A) false n2 with ⟨e2, -⟩ | ⟨S2, p, e2, g2⟩
  · exfalso
    unfold Own.alloc hCalloc at e2
    simp only [Bool.false_eq_true, if_false, n2.check.1, bind_ok, if_pos h2] at e2
    cases e2
  simp only [e, e2, bind_ok, hb2]
  rw [if_neg (by omega)]
  exact ⟨S2, p, q, rfl, g2.heap⟩

/-! ### Examples -/

/-- Example: a tracked vector, a string on the system heap and its copy, with growth, a fast removal and destruction: everything is released. -/
example :
    (do
      let (m, H) ← Mal.create malE bumpA ⟨[(7, 3)], 0⟩
      let s ← run malE bumpA ⟨⟨H, m⟩, []⟩ [.make true (.vec 1 2), .make false (.str [some 104, some 105, some 0]),
        .call 0 (.vecPushBack [some 1, some 2]), .call 0 (.vecPushBack [some 3, some 4]), .call 0 (.vecRemove 0 .fast),
        .call 1 (.append [some 33, some 0]), .dup 1 true, .destroy 1, .destroy 0, .destroy 2]
      .ok (s.objs, s.sys.heap.blocks)) = .ok ([none, none, none], [(9, 256), (8, 88), (7, 3)]) := by
  decide +kernel

/-- Example: the same program without the last three commands: six blocks, two of them tracked (the copy of a
string is where the string is), the allocator's two and the one from before. -/
example :
    (do
      let (m, H) ← Mal.create malE bumpA ⟨[(7, 3)], 0⟩
      let s ← run malE bumpA ⟨⟨H, m⟩, []⟩ [.make true (.vec 1 2), .make false (.str [some 104, some 105, some 0]),
        .call 0 (.vecPushBack [some 1, some 2]), .call 0 (.vecPushBack [some 3, some 4]), .call 0 (.vecRemove 0 .fast),
        .call 1 (.append [some 33, some 0]), .dup 1 true]
      .ok (s.sys.heap.blocks.length, s.sys.mal.objs.length, s.sys.mal.stats.bytesAllocated)) = .ok (9, 2, 56 + 6) := by
  decide +kernel

end Vita
