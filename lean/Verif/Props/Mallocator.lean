import Verif.Model.Mallocator
import Mathlib.Data.List.Nodup
import Mathlib.Data.List.Perm.Basic
import Mathlib.Algebra.BigOperators.Group.List.Basic
/-!
# Properties C38, C39: the tracking allocator
-/

namespace Vita
open Out Mal

seal wadd wsub wmul

/-! ### Specification: what the user knows -/

/-- The user's ledger of an allocator: the live blocks obtained from it (address and size), the numbers of calls, the number of bytes
given back so far, and the blocks that belong to the rest of the program. -/
structure Ledger where
  live : List (Nat × Nat)
  allocs : Nat
  reallocs : Nat
  frees : Nat
  released : Nat
  outside : List (Nat × Nat)

/-- The size of the live block at an address. -/
def Ledger.size (L : Ledger) (p : Nat) : Nat := ((L.live.find? (·.1 = p)).map (·.2)).getD 0

/-- `Hist E A m H L`: the allocator `m`, the heap `H` and the user's ledger `L` after some history that began with the creation of the
allocator and used only pointers obtained from it and not yet freed; in between, the rest of the program may allocate blocks
and free its own. -/
inductive Hist (E : Env) (A : Allocator) : T → Heap → Ledger → Prop
  | create {H m H'} (hd : H.addrs.Nodup) (h : Mal.create E A H = .ok (m, H')) : Hist E A m H' ⟨[], 0, 0, 0, 0, H.blocks⟩
  | alloc {m H L n m' H' p} (h : Hist E A m H L) (hn : 0 < n) (e : Mal.alloc E A H m n = .ok (m', H', p)) :
      Hist E A m' H' { L with live := (p, n) :: L.live, allocs := L.allocs + 1 }
  | realloc {m H L q n m' H' p} (h : Hist E A m H L) (hn : 0 < n) (hq : q ∈ L.live.map (·.1))
      (e : Mal.realloc E A H m q n = .ok (m', H', p)) :
      Hist E A m' H' { L with live := (p, n) :: L.live.filter (·.1 ≠ q), reallocs := L.reallocs + 1,
                              released := L.released + (L.size q - n) }
  | free {m H L q m' H'} (h : Hist E A m H L) (hq : q ∈ L.live.map (·.1)) (e : Mal.free E H m q = .ok (m', H')) :
      Hist E A m' H' { L with live := L.live.filter (·.1 ≠ q), frees := L.frees + 1, released := L.released + L.size q }
  | otherAlloc {m H L n H' p} (h : Hist E A m H L) (e : hCalloc E A H n = .ok (H', p)) :
      Hist E A m H' { L with outside := (p, n) :: L.outside }
  | otherFree {m H L q H'} (h : Hist E A m H L) (hq : q ∈ L.outside.map (·.1)) (hq0 : q ≠ 0) (e : hFree H q = .ok H') :
      Hist E A m H' { L with outside := L.outside.filter (·.1 ≠ q) }

/-! ### Lists of blocks -/

theorem filter_ne_self {l : List (Nat × Nat)} {q : Nat} (h : q ∉ l.map (·.1)) : l.filter (·.1 ≠ q) = l := by
  rw [List.filter_eq_self]
  intro x hx
  simp only [decide_not, Bool.not_eq_eq_eq_not, Bool.not_true, decide_eq_false_iff_not]
  intro he
  exact h (List.mem_map.2 ⟨x, hx, he⟩)

theorem mem_map_filter_ne {l : List (Nat × Nat)} {q x : Nat} : x ∈ (l.filter (·.1 ≠ q)).map (·.1) ↔ x ∈ l.map (·.1) ∧ x ≠ q := by
  simp only [List.mem_map, List.mem_filter, decide_not, Bool.not_eq_eq_eq_not, Bool.not_true, decide_eq_false_iff_not]
  constructor
  · rintro ⟨a, ⟨h1, h2⟩, rfl⟩
    exact ⟨⟨a, h1, rfl⟩, h2⟩
  · rintro ⟨⟨a, h1, rfl⟩, h2⟩
    exact ⟨a, ⟨h1, h2⟩, rfl⟩

theorem nodup_filter {l : List (Nat × Nat)} (q : Nat) (h : (l.map (·.1)).Nodup) : ((l.filter (·.1 ≠ q)).map (·.1)).Nodup :=
  List.Nodup.sublist (List.filter_sublist.map _) h

/-- Splitting a list of blocks with distinct addresses at the block `q`. -/
theorem split_at {l : List (Nat × Nat)} {q : Nat} (hd : (l.map (·.1)).Nodup) (hq : q ∈ l.map (·.1)) :
    ∃ a s b, l = a ++ (q, s) :: b ∧ l.filter (·.1 ≠ q) = a ++ b ∧ q ∉ a.map (·.1) ∧ q ∉ b.map (·.1) := by
  obtain ⟨⟨q', s⟩, hm, rfl⟩ := List.mem_map.1 hq
  obtain ⟨a, b, rfl⟩ := List.append_of_mem hm
  simp only [List.map_append, List.map_cons] at hd
  have h1 : q' ∉ a.map (·.1) := by
    intro h
    exact (List.nodup_append.1 hd).2.2 _ h _ (by simp) rfl
  have h2 : q' ∉ b.map (·.1) := (List.nodup_cons.1 (List.nodup_append.1 hd).2.1).1
  refine ⟨a, s, b, rfl, ?_, h1, h2⟩
  rw [List.filter_append, List.filter_cons_of_neg (by simp), filter_ne_self h1, filter_ne_self h2]

theorem find_split {a b : List (Nat × Nat)} {q s : Nat} (h1 : q ∉ a.map (·.1)) :
    (a ++ (q, s) :: b).find? (·.1 = q) = some (q, s) := by
  rw [List.find?_append, List.find?_eq_none.2, List.find?_cons_of_pos (by simp)]
  · rfl
  · intro x hx
    simp only [decide_eq_true_eq]
    intro he
    exact h1 (List.mem_map.2 ⟨x, hx, he⟩)

theorem perm_find {l l' : List (Nat × Nat)} {q : Nat} (hp : l.Perm l') (hd : (l.map (·.1)).Nodup) (hq : q ∈ l.map (·.1)) :
    l.find? (·.1 = q) = l'.find? (·.1 = q) := by
  obtain ⟨a, s, b, e, -, h1, h2⟩ := split_at hd hq
  obtain ⟨a', s', b', e', -, h1', h2'⟩ := split_at ((hp.map (·.1)).nodup_iff.1 hd) ((hp.map (·.1)).mem_iff.1 hq)
  have hm : (q, s) ∈ l' := hp.mem_iff.1 (by rw [e]; simp)
  rw [e'] at hm
  have hs : s = s' := by
    rcases List.mem_append.1 hm with hm | hm
    · exact absurd (List.mem_map.2 ⟨_, hm, rfl⟩) h1'
    · rcases List.mem_cons.1 hm with hm | hm
      · exact (Prod.mk.inj hm).2
      · exact absurd (List.mem_map.2 ⟨_, hm, rfl⟩) h2'
  subst hs
  rw [e, e', find_split h1, find_split h1']

/-! ### The object list -/

theorem findLoop_split : ∀ (a b : List (Nat × Nat)) (q s i : Nat), q ∉ a.map (·.1) →
    findLoop (a ++ (q, s) :: b) q i = some (i + a.length)
  | [], b, q, s, i, _ => by simp [findLoop]
  | x :: a, b, q, s, i, h => by
    simp only [List.map_cons, List.mem_cons, not_or] at h
    rw [List.cons_append, findLoop, if_neg (fun e => h.1 e.symm), findLoop_split a b q s (i + 1) h.2]
    simp; omega

theorem objList_remove_ok {m : T} {q : Nat} (hd : (m.objs.map (·.1)).Nodup) (hq : q ∈ m.objs.map (·.1)) :
    ∃ objs s, Mal.remove m q = .ok ({ m with objs := objs }, s) ∧ m.objs.Perm ((q, s) :: objs) ∧
      objs.Perm (m.objs.filter (·.1 ≠ q)) ∧ m.objs.find? (·.1 = q) = some (q, s) := by
  obtain ⟨a, s, b, e, ef, h1, h2⟩ := split_at hd hq
  have hfind := findLoop_split a b q s 0 h1
  have hlen : m.objs.length = a.length + (b.length + 1) := by rw [e]; simp
  rcases List.eq_nil_or_concat b with hb | ⟨b', l, hb⟩
  · subst hb
    refine ⟨a, s, ?_, ?_, ?_, ?_⟩
    · unfold Mal.remove
      rw [if_pos (by omega), e, hfind]
      have g1 : (a ++ [(q, s)])[0 + a.length]? = some (q, s) := by simp
      have g2 : (a ++ [(q, s)])[(a ++ [(q, s)]).length - 1]? = some (q, s) := by simp
      simp only [g1, g2]
      rw [if_neg (by simp)]
      simp
    · rw [e]; exact List.perm_append_comm
    · rw [ef]; simp
    · rw [e]; exact find_split h1
  · rw [List.concat_eq_append] at hb
    subst hb
    have hlast : m.objs[m.objs.length - 1]? = some l := by
      rw [e]
      simp [List.getElem?_append]
    refine ⟨a ++ l :: b', s, ?_, ?_, ?_, ?_⟩
    · unfold Mal.remove
      rw [if_pos (by omega)]
      have hf : findLoop m.objs q 0 = some (0 + a.length) := by rw [e]; exact hfind
      have g1 : m.objs[0 + a.length]? = some (q, s) := by rw [e]; simp
      simp only [hf, g1, hlast]
      rw [if_pos (by rw [hlen]; simp)]
      have : (m.objs.set (0 + a.length) l).dropLast = a ++ l :: b' := by
        rw [e, Nat.zero_add, List.set_append_right _ _ (by omega)]
        simp only [Nat.sub_self, List.set_cons_zero]
        rw [show a ++ l :: (b' ++ [l]) = (a ++ l :: b') ++ [l] by simp, List.dropLast_concat]
      rw [this]
    · rw [e]
      refine List.perm_middle.trans (List.Perm.cons _ (List.Perm.append_left a ?_))
      exact List.perm_append_comm
    · rw [ef]
      exact List.Perm.append_left a (List.perm_append_comm (l₁ := [l]))
    · rw [e]; exact find_split h1

/-! ### The invariant -/

/-- Sum of the sizes of blocks. -/
def total (l : List (Nat × Nat)) : Nat := (l.map (·.2)).sum

/-- What holds whatever blocks are passed to the allocator. -/
structure InvCore (E : Env) (m : T) (H : Heap) (L : Ledger) : Prop where
  objs : m.objs.Perm L.live
  heap : H.blocks.Perm (L.live ++ L.outside ++ [(m.table, m.cap * objSize), (m.self, structSize)])
  nodup : H.addrs.Nodup
  nz : m.table ≠ 0 ∧ m.self ≠ 0 ∧ 0 ∉ L.live.map (·.1)
  len : m.objs.length ≤ m.cap
  cap : 0 < m.cap ∧ m.cap * objSize < 2 ^ 56
  sizes : ∀ x ∈ L.live, 0 < x.2 ∧ x.2 < 2 ^ 56
  allocs : m.stats.allocs = L.allocs % 2 ^ 64
  reallocs : m.stats.reallocs = L.reallocs % 2 ^ 64
  frees : m.stats.frees = L.frees % 2 ^ 64
  bytes : m.stats.bytesAllocated = total L.live % 2 ^ 64
  freed : m.stats.bytesFreed = L.released % 2 ^ 64

structure Inv (E : Env) (m : T) (H : Heap) (L : Ledger) : Prop extends InvCore E m H L where
  count : L.allocs = L.frees + L.live.length

theorem InvCore.addrs_perm {E : Env} {m : T} {H : Heap} {L : Ledger} (h : InvCore E m H L) :
    H.addrs.Perm (L.live.map (·.1) ++ L.outside.map (·.1) ++ [m.table, m.self]) := by
  have := h.heap.map (·.1)
  simpa [Heap.addrs] using this

theorem InvCore.nodup' {E : Env} {m : T} {H : Heap} {L : Ledger} (h : InvCore E m H L) :
    (L.live.map (·.1) ++ L.outside.map (·.1) ++ [m.table, m.self]).Nodup := h.addrs_perm.nodup_iff.1 h.nodup

theorem InvCore.live_nodup {E : Env} {m : T} {H : Heap} {L : Ledger} (h : InvCore E m H L) : (L.live.map (·.1)).Nodup :=
  (List.nodup_append.1 (List.nodup_append.1 h.nodup').1).1

theorem InvCore.objs_nodup {E : Env} {m : T} {H : Heap} {L : Ledger} (h : InvCore E m H L) : (m.objs.map (·.1)).Nodup :=
  (h.objs.map (·.1)).nodup_iff.2 h.live_nodup

theorem perm_filter_block {l : List (Nat × Nat)} {q s : Nat} {r : List (Nat × Nat)} (hd : (l.map (·.1)).Nodup)
    (hp : l.Perm ((q, s) :: r)) : (l.filter (·.1 ≠ q)).Perm r := by
  have h1 := hp.filter (·.1 ≠ q)
  have hd' := (hp.map (·.1)).nodup_iff.1 hd
  rw [List.map_cons, List.nodup_cons] at hd'
  rw [List.filter_cons_of_neg (by simp), filter_ne_self hd'.1] at h1
  exact h1

/-- Growing the object list moves only its own block. -/
theorem objList_add_ok {E : Env} {A : Allocator} {m : T} {H : Heap} {rest : List (Nat × Nat)} {obj : Nat × Nat}
    (hp : H.blocks.Perm ((m.table, m.cap * objSize) :: rest)) (hd : H.addrs.Nodup) (hnz : m.table ≠ 0) (hlen : m.objs.length ≤ m.cap)
    (hc : 0 < m.cap ∧ m.cap * objSize < 2 ^ 56) :
    Mal.add E A H m obj = .exit .alloc ∨
    ∃ t c H', Mal.add E A H m obj = .ok ({ m with table := t, cap := c, objs := m.objs ++ [obj] }, H') ∧
      H'.blocks.Perm ((t, c * objSize) :: rest) ∧ H'.addrs.Nodup ∧ t ≠ 0 ∧ m.objs.length + 1 ≤ c ∧ c * objSize < 2 ^ 56 := by
  have hcap : m.cap < 2 ^ 56 := by have := hc.2; unfold objSize at this; omega
  have hmem : m.table ∈ H.addrs := by
    have := (hp.map (·.1)).mem_iff (a := m.table)
    exact this.2 (by simp)
  unfold Mal.add
  have hws : wsub m.cap m.objs.length = m.cap - m.objs.length := wsub_eq hlen (by omega)
  by_cases hs : m.objs.length < m.cap
  · right
    have : hasSpace m = true := by
      rw [hasSpace, hws]
      simp; omega
    simp only [this, Bool.not_true, Bool.false_eq_true, if_false, bind_ok, if_pos hs]
    exact ⟨m.table, m.cap, H, rfl, hp, hd, hnz, hs, hc.2⟩
  · have : hasSpace m = false := by
      rw [hasSpace, hws]
      simp; omega
    have w1 : wmul 2 m.cap = 2 * m.cap := wmul_eq (by omega)
    have w2 : wmul (2 * m.cap) objSize = 2 * m.cap * objSize := wmul_eq (by have := hc.2; unfold objSize at *; omega)
    have hpos : 0 < 2 * m.cap * objSize := by have := hc.1; unfold objSize; omega
    simp only [this, Bool.not_false, if_true, Mal.resize, w1, w2, decide_eq_true (show 2 * m.cap > 0 by omega), dassert_true, bind_ok,
      hRealloc, decide_eq_true (show 2 * m.cap * objSize > 0 from hpos), cassert_true]
    rw [if_neg (fun g => g.2 hmem), if_neg (by omega)]
    by_cases ha : E.allocOk (2 * m.cap * objSize) = true
    · right
      rw [if_pos ha]
      simp only [bind_ok]
      rw [if_pos (by omega)]
      obtain ⟨f1, f2⟩ := A.realloc_fresh H m.table (2 * m.cap * objSize)
      have hr := perm_filter_block hd hp
      refine ⟨_, _, _, rfl, ?_, ?_, f1, by omega, E.lim _ ha⟩
      · exact List.Perm.cons _ hr
      · simp only [Heap.addrs, List.map_cons, List.nodup_cons]
        refine ⟨?_, nodup_filter _ hd⟩
        rw [mem_map_filter_ne]
        rintro ⟨g1, g2⟩
        rcases f2 with f2 | f2
        · exact g2 f2
        · exact f2 g1
    · left
      rw [if_neg ha]
      simp

theorem total_perm {l l' : List (Nat × Nat)} (h : l.Perm l') : total l = total l' :=
  List.Perm.sum_eq (h.map Prod.snd)

theorem total_cons (x : Nat × Nat) (l : List (Nat × Nat)) : total (x :: l) = x.2 + total l := by simp [total]

theorem Inv.create {E : Env} {A : Allocator} {H : Heap} {m : T} {H' : Heap} (hd : H.addrs.Nodup)
    (e : Mal.create E A H = .ok (m, H')) : Inv E m H' ⟨[], 0, 0, 0, 0, H.blocks⟩ := by
  have w : wmul objSize initElems = 256 := wmul_eq (by decide)
  unfold Mal.create at e
  simp only [hCalloc, w, show (decide (structSize > 0)) = true from rfl, show (decide (256 > 0)) = true from rfl, cassert_true, bind_ok] at e
  by_cases h1 : E.allocOk structSize = true
  · rw [if_pos h1] at e
    simp only [bind_ok] at e
    by_cases h2 : E.allocOk 256 = true
    · rw [if_pos h2] at e
      simp only [bind_ok, Out.ok.injEq, Prod.mk.injEq] at e
      obtain ⟨rfl, rfl⟩ := e
      obtain ⟨a1, a2⟩ := A.calloc_fresh H structSize
      obtain ⟨b1, b2⟩ := A.calloc_fresh ⟨(A.calloc H structSize, structSize) :: H.blocks, H.tick + 1⟩ 256
      refine ⟨⟨by simp, ?_, ?_, ⟨b1, a1, by simp⟩, by simp [initElems], ⟨by simp [initElems], by simp [initElems, objSize]⟩, by simp, rfl,
        rfl, rfl, rfl, rfl⟩, rfl⟩
      · simp only [List.nil_append, initElems, objSize]
        exact List.perm_append_comm (l₁ := [_, _])
      · simp only [Heap.addrs, List.map_cons, List.nodup_cons] at *
        exact ⟨b2, a2, hd⟩
    · rw [if_neg h2] at e
      simp at e
  · rw [if_neg h1] at e
    simp at e

/-- A call either ends the program because memory is refused, or succeeds and leaves a state with the property. -/
theorem InvCore.alloc {E : Env} {A : Allocator} {m : T} {H : Heap} {L : Ledger} {n : Nat} (h : InvCore E m H L) (hn : 0 < n) :
    Mal.alloc E A H m n = .exit .alloc ∨ ∃ m' H' p, Mal.alloc E A H m n = .ok (m', H', p) ∧
      InvCore E m' H' { L with live := (p, n) :: L.live, allocs := L.allocs + 1 } := by
  unfold Mal.alloc
  simp only [decide_eq_true (show n > 0 from hn), dassert_true, cassert_true, bind_ok, hCalloc]
  by_cases ha : E.allocOk n = true
  swap
  · left; rw [if_neg ha]; simp
  rw [if_pos ha]
  simp only [bind_ok]
  obtain ⟨f1, f2⟩ := A.calloc_fresh H n
  generalize hp : A.calloc H n = p at *
  have hd : Heap.addrs ⟨(p, n) :: H.blocks, H.tick + 1⟩ = p :: H.addrs := rfl
  have key := objList_add_ok (E := E) (A := A) (m := m) (H := ⟨(p, n) :: H.blocks, H.tick + 1⟩)
    (rest := (p, n) :: (L.live ++ L.outside ++ [(m.self, structSize)])) (obj := (p, n))
    (by
      refine (List.Perm.cons _ h.heap).trans ?_
      refine (List.Perm.cons _ ?_).trans (List.Perm.swap _ _ _)
      refine (List.Perm.append_left _ (List.Perm.refl _)).trans ?_
      exact List.perm_middle (l₁ := L.live ++ L.outside) (l₂ := [(m.self, structSize)]))
    (by rw [hd]; exact List.nodup_cons.2 ⟨f2, h.nodup⟩) h.nz.1 h.len h.cap
  rcases key with key | ⟨t, c, H', e, g1, g2, g3, g4, g5⟩
  · left; rw [key]; simp
  right
  rw [e]
  simp only [bind_ok]
  refine ⟨_, _, _, rfl, ?_⟩
  constructor
  · exact (List.perm_append_comm (l₁ := m.objs) (l₂ := [(p, n)])).trans (List.Perm.cons _ h.objs)
  · refine g1.trans ?_
    simp only [List.cons_append]
    refine (List.Perm.swap _ _ _).trans (List.Perm.cons _ ?_)
    exact (List.perm_middle (l₁ := L.live ++ L.outside) (l₂ := [(m.self, structSize)])).symm
  · exact g2
  · exact ⟨g3, h.nz.2.1, by simpa using ⟨fun e => f1 e.symm, by simpa using h.nz.2.2⟩⟩
  · simpa using g4
  · exact ⟨by simp only; omega, g5⟩
  · intro x hx
    rcases List.mem_cons.1 hx with rfl | hx
    · exact ⟨hn, E.lim _ ha⟩
    · exact h.sizes x hx
  · simp only [h.allocs, wadd]; omega
  · exact h.reallocs
  · exact h.frees
  · simp only [h.bytes, wadd, total_cons]; omega
  · exact h.freed

theorem Inv.alloc {E : Env} {A : Allocator} {m : T} {H : Heap} {L : Ledger} {n : Nat} (h : Inv E m H L) (hn : 0 < n) :
    Mal.alloc E A H m n = .exit .alloc ∨ ∃ m' H' p, Mal.alloc E A H m n = .ok (m', H', p) ∧
      Inv E m' H' { L with live := (p, n) :: L.live, allocs := L.allocs + 1 } := by
  rcases h.toInvCore.alloc (A := A) hn with g | ⟨m', H', p, e, g⟩
  · exact .inl g
  · exact .inr ⟨m', H', p, e, g, by simp only [List.length_cons, h.count]; omega⟩

/-- Taking the live block `q` out of the ledger. -/
theorem InvCore.take {E : Env} {m : T} {H : Heap} {L : Ledger} {q : Nat} (h : InvCore E m H L) (hq : q ∈ L.live.map (·.1)) :
    ∃ objs s, Mal.remove m q = .ok ({ m with objs := objs }, s) ∧ L.live.Perm ((q, s) :: L.live.filter (·.1 ≠ q)) ∧
      objs.Perm (L.live.filter (·.1 ≠ q)) ∧ objs.length + 1 = m.objs.length ∧ L.size q = s ∧ 0 < s ∧ s < 2 ^ 56 ∧ q ≠ 0 ∧ q ∈ H.addrs ∧
      (H.blocks.filter (·.1 ≠ q)).Perm (L.live.filter (·.1 ≠ q) ++ L.outside ++ [(m.table, m.cap * objSize), (m.self, structSize)]) ∧
      total L.live = s + total (L.live.filter (·.1 ≠ q)) ∧ L.live.length = (L.live.filter (·.1 ≠ q)).length + 1 := by
  obtain ⟨objs, s, e, p1, p2, fq⟩ := objList_remove_ok h.objs_nodup ((h.objs.map (·.1)).mem_iff.2 hq)
  have p3 : objs.Perm (L.live.filter (·.1 ≠ q)) := p2.trans (h.objs.filter _)
  have p4 : L.live.Perm ((q, s) :: L.live.filter (·.1 ≠ q)) := h.objs.symm.trans (p1.trans (List.Perm.cons _ p3))
  have hm : (q, s) ∈ L.live := p4.mem_iff.2 (by simp)
  have hs := h.sizes _ hm
  have hqH : q ∈ H.addrs := h.addrs_perm.mem_iff.2 (by simp only [List.mem_append]; exact Or.inl (Or.inl hq))
  refine ⟨objs, s, e, p4, p3, ?_, ?_, hs.1, hs.2, ?_, hqH, ?_, ?_, ?_⟩
  · have := p1.length_eq
    simp only [List.length_cons] at this
    omega
  · unfold Ledger.size
    rw [← perm_find h.objs h.objs_nodup ((h.objs.map (·.1)).mem_iff.2 hq), fq]
    rfl
  · rintro rfl
    exact h.nz.2.2 hq
  · refine perm_filter_block (s := s) h.nodup ?_
    refine h.heap.trans ?_
    simp only [← List.cons_append]
    exact (p4.append_right _).append_right _
  · rw [total_perm p4, total_cons]
  · have := p4.length_eq
    simp only [List.length_cons] at this
    exact this

theorem InvCore.free {E : Env} {m : T} {H : Heap} {L : Ledger} {q : Nat} (h : InvCore E m H L) (hq : q ∈ L.live.map (·.1)) :
    ∃ m' H', Mal.free E H m q = .ok (m', H') ∧
      InvCore E m' H' { L with live := L.live.filter (·.1 ≠ q), frees := L.frees + 1, released := L.released + L.size q } := by
  obtain ⟨objs, s, e, p4, p3, hl, hsz, hs0, hs1, hq0, hqH, hp, ht, hlen⟩ := h.take hq
  unfold Mal.free
  have : (q != 0) = true := by simpa using hq0
  simp only [this, dassert_true, bind_ok, e, if_pos (show s > 0 from hs0), hFree, if_neg hq0, if_neg (not_not.2 hqH)]
  refine ⟨_, _, rfl, ?_⟩
  constructor
  · exact p3
  · exact hp
  · exact nodup_filter _ h.nodup
  · refine ⟨h.nz.1, h.nz.2.1, ?_⟩
    rw [mem_map_filter_ne]
    exact fun g => h.nz.2.2 g.1
  · have := h.len
    simp only; omega
  · exact h.cap
  · intro x hx
    exact h.sizes x (List.mem_filter.1 hx).1
  · exact h.allocs
  · exact h.reallocs
  · simp only [h.frees, wadd]; omega
  · simp only [h.bytes, ht, wsub]; omega
  · simp only [h.freed, hsz, wadd]; omega

theorem Inv.free {E : Env} {m : T} {H : Heap} {L : Ledger} {q : Nat} (h : Inv E m H L) (hq : q ∈ L.live.map (·.1)) :
    ∃ m' H', Mal.free E H m q = .ok (m', H') ∧
      Inv E m' H' { L with live := L.live.filter (·.1 ≠ q), frees := L.frees + 1, released := L.released + L.size q } := by
  obtain ⟨-, -, -, -, -, -, -, -, -, -, -, -, -, hlen⟩ := h.toInvCore.take hq
  obtain ⟨m', H', e, g⟩ := h.toInvCore.free hq
  exact ⟨m', H', e, g, by simp only [h.count, hlen]; omega⟩

theorem InvCore.realloc {E : Env} {A : Allocator} {m : T} {H : Heap} {L : Ledger} {q n : Nat} (h : InvCore E m H L) (hn : 0 < n)
    (hq : q ∈ L.live.map (·.1)) :
    Mal.realloc E A H m q n = .exit .alloc ∨ ∃ m' H' p, Mal.realloc E A H m q n = .ok (m', H', p) ∧
      InvCore E m' H' { L with live := (p, n) :: L.live.filter (·.1 ≠ q), reallocs := L.reallocs + 1,
                               released := L.released + (L.size q - n) } := by
  obtain ⟨objs, s, e, p4, p3, hl, hsz, hs0, hs1, hq0, hqH, hp, ht, hlen⟩ := h.take hq
  unfold Mal.realloc
  have : (q != 0) = true := by simpa using hq0
  simp only [this, decide_eq_true (show n > 0 from hn), dassert_true, cassert_true, bind_ok, e, hRealloc, if_neg (fun g : q ≠ 0 ∧ q ∉ H.addrs => g.2 hqH)]
  rw [if_neg (by omega)]
  by_cases ha : E.allocOk n = true
  swap
  · left; rw [if_neg ha]; simp
  rw [if_pos ha]
  simp only [bind_ok]
  obtain ⟨f1, f2⟩ := A.realloc_fresh H q n
  generalize hp' : A.realloc H q n = p at *
  have hfresh : p ∉ (H.blocks.filter (·.1 ≠ q)).map (·.1) := by
    rw [mem_map_filter_ne]
    rintro ⟨g1, g2⟩
    rcases f2 with f2 | f2
    · exact g2 f2
    · exact f2 g1
  have key := objList_add_ok (E := E) (A := A) (m := { m with objs := objs }) (H := ⟨(p, n) :: H.blocks.filter (·.1 ≠ q), H.tick + 1⟩)
    (rest := (p, n) :: (L.live.filter (·.1 ≠ q) ++ L.outside ++ [(m.self, structSize)])) (obj := (p, n))
    (by
      refine (List.Perm.cons _ hp).trans ?_
      refine (List.Perm.cons _ ?_).trans (List.Perm.swap _ _ _)
      exact List.perm_middle (l₁ := L.live.filter (·.1 ≠ q) ++ L.outside) (l₂ := [(m.self, structSize)]))
    (List.nodup_cons.2 ⟨hfresh, nodup_filter _ h.nodup⟩) h.nz.1 (by have := h.len; simp only; omega) h.cap
  rcases key with key | ⟨t, c, H', e, g1, g2, g3, g4, g5⟩
  · left; rw [key]; simp
  right
  rw [e]
  simp only [bind_ok]
  refine ⟨_, _, _, rfl, ?_⟩
  have hn1 := E.lim _ ha
  constructor
  · exact (List.perm_append_comm (l₁ := objs) (l₂ := [(p, n)])).trans (List.Perm.cons _ p3)
  · refine g1.trans ?_
    simp only [List.cons_append]
    refine (List.Perm.swap _ _ _).trans (List.Perm.cons _ ?_)
    exact (List.perm_middle (l₁ := L.live.filter (·.1 ≠ q) ++ L.outside) (l₂ := [(m.self, structSize)])).symm
  · exact g2
  · refine ⟨g3, h.nz.2.1, ?_⟩
    simp only [List.map_cons, List.mem_cons, not_or]
    refine ⟨fun e => f1 e.symm, ?_⟩
    rw [mem_map_filter_ne]
    exact fun g => h.nz.2.2 g.1
  · simpa using g4
  · exact ⟨by simp only; omega, g5⟩
  · intro x hx
    rcases List.mem_cons.1 hx with rfl | hx
    · exact ⟨hn, hn1⟩
    · exact h.sizes x (List.mem_filter.1 hx).1
  · exact h.allocs
  · simp only [h.reallocs, wadd]; omega
  · exact h.frees
  · simp only [h.bytes, ht, wadd, wsub, total_cons]; omega
  · simp only [h.freed, hsz, wsub]
    split <;> omega

theorem Inv.realloc {E : Env} {A : Allocator} {m : T} {H : Heap} {L : Ledger} {q n : Nat} (h : Inv E m H L) (hn : 0 < n)
    (hq : q ∈ L.live.map (·.1)) :
    Mal.realloc E A H m q n = .exit .alloc ∨ ∃ m' H' p, Mal.realloc E A H m q n = .ok (m', H', p) ∧
      Inv E m' H' { L with live := (p, n) :: L.live.filter (·.1 ≠ q), reallocs := L.reallocs + 1,
                           released := L.released + (L.size q - n) } := by
  obtain ⟨-, -, -, -, -, -, -, -, -, -, -, -, -, hlen⟩ := h.toInvCore.take hq
  rcases h.toInvCore.realloc (A := A) hn hq with g | ⟨m', H', p, e, g⟩
  · exact .inl g
  · exact .inr ⟨m', H', p, e, g, by simp only [h.count, hlen, List.length_cons]⟩

theorem hist_inv {E : Env} {A : Allocator} {m : T} {H : Heap} {L : Ledger} (h : Hist E A m H L) : Inv E m H L := by
  induction h with
  | create hd h => exact Inv.create hd h
  | alloc _ hn e ih =>
    rcases ih.alloc (A := A) hn with h | ⟨m', H', p, h, hi⟩
    · rw [h] at e; simp at e
    · rw [h] at e
      simp only [Out.ok.injEq, Prod.mk.injEq] at e
      obtain ⟨rfl, rfl, rfl⟩ := e
      exact hi
  | realloc _ hn hq e ih =>
    rcases ih.realloc (A := A) hn hq with h | ⟨m', H', p, h, hi⟩
    · rw [h] at e; simp at e
    · rw [h] at e
      simp only [Out.ok.injEq, Prod.mk.injEq] at e
      obtain ⟨rfl, rfl, rfl⟩ := e
      exact hi
  | free _ hq e ih =>
    obtain ⟨m', H', h, hi⟩ := ih.free hq
    rw [h] at e
    simp only [Out.ok.injEq, Prod.mk.injEq] at e
    obtain ⟨rfl, rfl⟩ := e
    exact hi
  | @otherAlloc m H L n H' p _ e ih =>
    unfold hCalloc at e
    simp only [bind_eq_ok] at e
    obtain ⟨-, -, e⟩ := e
    split at e
    · simp only [Out.ok.injEq, Prod.mk.injEq] at e
      obtain ⟨rfl, rfl⟩ := e
      obtain ⟨f1, f2⟩ := A.calloc_fresh H n
      refine { ih with heap := ?_, nodup := List.nodup_cons.2 ⟨f2, ih.nodup⟩ }
      refine (List.Perm.cons _ ih.heap).trans ?_
      simp only [List.append_assoc, List.cons_append]
      exact (List.perm_middle (l₁ := L.live)).symm
    · simp at e
  | @otherFree m H L q H' _ hq hq0 e ih =>
    unfold hFree at e
    have hd := ih.nodup'
    have d1 := List.nodup_append.1 hd
    have d2 := List.nodup_append.1 d1.1
    have q1 : q ∉ L.live.map (·.1) := fun g => d2.2.2 _ g _ hq rfl
    have q2 : q ∉ [m.table, m.self] := fun g => d1.2.2 _ (List.mem_append_right _ hq) _ g rfl
    rw [if_neg hq0] at e
    split at e
    · simp at e
    · simp only [Out.ok.injEq] at e
      subst e
      refine { ih with heap := ?_, nodup := nodup_filter _ ih.nodup }
      have := ih.heap.filter (·.1 ≠ q)
      refine this.trans ?_
      rw [List.filter_append, List.filter_append, filter_ne_self q1, filter_ne_self (l := [(m.table, _), (m.self, _)]) (by simpa using q2)]

/-! ### C38 -/

/-- **C38.** After every history the recorded outstanding bytes are the sizes of the live blocks added up, exactly the live blocks
are tracked (with their sizes), allocations minus frees is their number, and the freed bytes counter is the number of all bytes
given back.  Byte counters are `size_t`: modulo `2^64`. -/
theorem C38_stats {E : Env} {A : Allocator} {m : T} {H : Heap} {L : Ledger} (h : Hist E A m H L) :
    m.stats.bytesAllocated = (L.live.map (·.2)).sum % 2 ^ 64 ∧
    m.objs.Perm L.live ∧ m.objs.length = L.live.length ∧
    wsub m.stats.allocs m.stats.frees = L.live.length ∧
    m.stats.bytesFreed = L.released % 2 ^ 64 := by
  have hi := hist_inv h
  have hl := hi.objs.length_eq
  refine ⟨hi.bytes, hi.objs, hl, ?_, hi.freed⟩
  have h1 := hi.len
  have h2 := hi.cap.2
  have h3 := hi.count
  unfold objSize at h2
  rw [hi.allocs, hi.frees, h3, wsub]
  omega

/-- **C38.** Exact counters while fewer than `2^64` bytes are outstanding and were released, and fewer than `2^64` calls were made. -/
theorem C38_stats_exact {E : Env} {A : Allocator} {m : T} {H : Heap} {L : Ledger} (h : Hist E A m H L)
    (hb : (L.live.map (·.2)).sum < 2 ^ 64) (hr : L.released < 2 ^ 64) (ha : L.allocs < 2 ^ 64) (hre : L.reallocs < 2 ^ 64) :
    m.stats = ⟨L.allocs, L.reallocs, L.frees, (L.live.map (·.2)).sum, L.released⟩ ∧ L.allocs = L.frees + L.live.length := by
  have hi := hist_inv h
  have hc := hi.count
  refine ⟨?_, hc⟩
  have e1 := hi.allocs
  have e2 := hi.reallocs
  have e3 := hi.frees
  have e4 := hi.bytes
  have e5 := hi.freed
  rw [Nat.mod_eq_of_lt (by omega)] at e1 e2 e3 e5
  rw [total, Nat.mod_eq_of_lt hb] at e4
  cases hm : m.stats
  simp_all

/-- **C38.** The calls of a history never run into undefined behaviour, whatever the order of the calls and across growth of the
tracking table: an allocation or reallocation of at least one byte succeeds unless memory is refused, a free always succeeds. -/
theorem C38_calls_succeed {E : Env} {A : Allocator} {m : T} {H : Heap} {L : Ledger} (h : Hist E A m H L) :
    (∀ n, 0 < n → Mal.alloc E A H m n = .exit .alloc ∨ ∃ r, Mal.alloc E A H m n = .ok r) ∧
    (∀ q ∈ L.live.map (·.1), ∀ n, 0 < n → Mal.realloc E A H m q n = .exit .alloc ∨ ∃ r, Mal.realloc E A H m q n = .ok r) ∧
    (∀ q ∈ L.live.map (·.1), ∃ r, Mal.free E H m q = .ok r) := by
  have hi := hist_inv h
  refine ⟨fun n hn => ?_, fun q hq n hn => ?_, fun q hq => ?_⟩
  · rcases hi.alloc (A := A) hn with h | ⟨m', H', p, h, -⟩
    · exact Or.inl h
    · exact Or.inr ⟨_, h⟩
  · rcases hi.realloc (A := A) hn hq with h | ⟨m', H', p, h, -⟩
    · exact Or.inl h
    · exact Or.inr ⟨_, h⟩
  · obtain ⟨m', H', h, -⟩ := hi.free hq
    exact ⟨_, h⟩

/-- **C38.** If memory is granted for the block and for the table, the allocation succeeds. -/
theorem C38_alloc_granted {E : Env} {A : Allocator} {m : T} {H : Heap} {L : Ledger} (h : Hist E A m H L) {n : Nat} (hn : 0 < n)
    (h1 : E.allocOk n = true) (h2 : E.allocOk (2 * m.cap * 16) = true) : ∃ r, Mal.alloc E A H m n = .ok r := by
  have hi := hist_inv h
  rcases hi.alloc (A := A) hn with h | ⟨m', H', p, h, -⟩
  swap
  · exact ⟨_, h⟩
  exfalso
  have hc := hi.cap
  unfold objSize at hc
  have hl := hi.len
  have hmem : m.table ∈ H.addrs := hi.addrs_perm.mem_iff.2 (by simp)
  have hws : wsub m.cap m.objs.length = m.cap - m.objs.length := wsub_eq hl (by omega)
  have w1 : wmul 2 m.cap = 2 * m.cap := wmul_eq (by omega)
  have w2 : wmul (2 * m.cap) objSize = 2 * m.cap * 16 := wmul_eq (by unfold objSize; omega)
  unfold Mal.alloc at h
  simp only [decide_eq_true (show n > 0 from hn), dassert_true, cassert_true, bind_ok, hCalloc, if_pos h1, Mal.add] at h
  by_cases hs : hasSpace m = true
  · have : m.objs.length < m.cap := by
      rw [hasSpace, hws] at hs
      simp at hs
      omega
    simp [hs, this] at h
  · have hm2 : m.table ∈ Heap.addrs ⟨(A.calloc H n, n) :: H.blocks, H.tick + 1⟩ := List.mem_cons_of_mem _ hmem
    simp only [Bool.not_eq_true] at hs
    simp only [hs, Bool.not_false, if_true, Mal.resize, w1, w2, decide_eq_true (show 2 * m.cap > 0 by omega), dassert_true, bind_ok, hRealloc,
      decide_eq_true (show 2 * m.cap * 16 > 0 by omega), cassert_true, if_neg (fun g : m.table ≠ 0 ∧ m.table ∉ Heap.addrs ⟨(A.calloc H n, n) :: H.blocks, H.tick + 1⟩ => g.2 hm2), if_pos h2] at h
    rw [if_neg (by omega)] at h
    simp only [bind_ok] at h
    rw [if_pos (by omega)] at h
    simp at h

/-- **C38.** A request of zero bytes ends the program in debug builds. -/
theorem C38_zero_bytes_debug {E : Env} (hE : E.debug = true) (A : Allocator) (m : T) (H : Heap) :
    Mal.alloc E A H m 0 = .exit .dbgAssert := by
  simp [Mal.alloc, dassert_false hE]

/-- An address one behind the largest in use. -/
def nextAddr (H : Heap) : Nat := H.addrs.foldr max 0 + 1

theorem nextAddr_fresh (H : Heap) : nextAddr H ≠ 0 ∧ nextAddr H ∉ H.addrs := by
  refine ⟨by simp [nextAddr], fun h => ?_⟩
  have : ∀ l : List Nat, ∀ x ∈ l, x ≤ l.foldr max 0 := by
    intro l
    induction l with
    | nil => simp
    | cons a l ih =>
      intro x hx
      rcases List.mem_cons.1 hx with rfl | hx
      · exact Nat.le_max_left _ _
      · have := ih x hx
        simp only [List.foldr_cons]
        omega
  have := this _ _ h
  unfold nextAddr at this
  omega

/-- An allocator that always moves blocks to a fresh address. -/
def bumpA : Allocator where
  calloc H _ := nextAddr H
  realloc H _ _ := nextAddr H
  calloc_fresh H _ := nextAddr_fresh H
  realloc_fresh H _ _ := ⟨(nextAddr_fresh H).1, Or.inr (nextAddr_fresh H).2⟩

/-- An example environment: release build, requests below 4 kB granted. -/
def malE : Env := ⟨false, fun n => n < 4096, false, by intro n h; have := of_decide_eq_true h; omega⟩

theorem findLoop_last {p n : Nat} : ∀ (l : List (Nat × Nat)) (i : Nat), p ∉ l.map (·.1) → findLoop (l ++ [(p, n)]) p i = some (i + l.length)
  | [], i, _ => by simp [findLoop]
  | x :: l, i, h => by
    simp only [List.map_cons, List.mem_cons, not_or] at h
    rw [List.cons_append, findLoop, if_neg (fun e => h.1 e.symm), findLoop_last l (i + 1) h.2, List.length_cons]
    congr 1; omega

/-- **C38, disagreement in release builds.** With a block of zero bytes the claim fails in every state: after an allocation of zero bytes and its free, the same blocks are live as before, but
allocations minus frees is larger by 1. -/
theorem C38_zero_bytes_release_uncounted {E : Env} {A : Allocator} {m m' m'' : T} {H H' H'' : Heap} {L : Ledger} {p : Nat} (h : Hist E A m H L)
    (ha : Mal.alloc E A H m 0 = .ok (m', H', p)) (hf : Mal.free E H' m' p = .ok (m'', H'')) :
    m''.objs = m.objs ∧ m''.stats.frees = m.stats.frees ∧ m''.stats.allocs = wadd m.stats.allocs 1 := by
  have hi := hist_inv h
  have hfresh := A.calloc_fresh H 0
  unfold Mal.alloc at ha
  simp only [bind_eq_ok] at ha
  obtain ⟨_, -, ⟨H1, p1⟩, hc, ⟨m1, H2⟩, hadd, hr⟩ := ha
  injection hr with hr
  simp only [Prod.mk.injEq] at hr
  obtain ⟨rfl, rfl, rfl⟩ := hr
  have hp : p1 = A.calloc H 0 := by
    unfold hCalloc at hc
    simp only [bind_eq_ok] at hc
    obtain ⟨_, -, hc⟩ := hc
    split at hc
    · injection hc with hc
      exact (Prod.mk.inj hc).2.symm
    · cases hc
  have hnot : p1 ∉ m.objs.map (·.1) := by
    rw [hp]
    intro hm
    refine hfresh.2 (hi.addrs_perm.mem_iff.2 ?_)
    have := (hi.objs.map (·.1)).mem_iff.1 hm
    simp [this]
  have h1 : m1.objs = m.objs ++ [(p1, 0)] ∧ m1.stats = m.stats := by
    have fin : ∀ (m2 : T) (H3 : Heap), m2.objs = m.objs → m2.stats = m.stats →
        (if m2.objs.length < m2.cap then Out.ok ({ m2 with objs := m2.objs ++ [(p1, 0)] }, H3) else .ub) = .ok (m1, H2) →
        m1.objs = m.objs ++ [(p1, 0)] ∧ m1.stats = m.stats := by
      intro m2 H3 g1 g2 g3
      split at g3
      · injection g3 with g3
        rw [← (Prod.mk.inj g3).1]
        exact ⟨by rw [g1], g2⟩
      · cases g3
    unfold Mal.add at hadd
    split at hadd
    · simp only [bind_eq_ok, Mal.resize] at hadd
      obtain ⟨⟨m2, H3⟩, ⟨_, -, ⟨H4, t⟩, -, hg⟩, hadd⟩ := hadd
      injection hg with hg
      obtain ⟨g1, -⟩ := Prod.mk.inj hg
      exact fin m2 H3 (by rw [← g1]) (by rw [← g1]) hadd
    · rw [bind_ok] at hadd
      exact fin m H1 rfl rfl hadd
  unfold Mal.free at hf
  simp only [bind_eq_ok] at hf
  obtain ⟨_, -, ⟨m3, n⟩, hrem, H5, -, hf⟩ := hf
  injection hf with hf
  rw [← (Prod.mk.inj hf).1]
  have hr2 : m3.objs = m.objs ∧ n = 0 ∧ m3.stats = { m1.stats with allocs := wadd m1.stats.allocs 1, bytesAllocated := wadd m1.stats.bytesAllocated 0 } := by
    unfold Mal.remove at hrem
    simp only [h1.1, List.length_append, List.length_singleton] at hrem
    rw [if_pos (by omega), findLoop_last _ _ hnot] at hrem
    simp only [Nat.zero_add, Nat.add_sub_cancel, List.getElem?_append_right (Nat.le_refl _), Nat.sub_self, List.getElem?_cons_zero, ne_eq, not_true_eq_false,
      if_false, List.dropLast_concat] at hrem
    injection hrem with hrem
    obtain ⟨e1, e2⟩ := Prod.mk.inj hrem
    rw [← e1]
    exact ⟨rfl, e2.symm, rfl⟩
  rw [hr2.2.1, if_neg (by omega)]
  refine ⟨hr2.1, ?_, ?_⟩
  · show m3.stats.frees = _
    rw [hr2.2.2, h1.2]
  · show m3.stats.allocs = _
    rw [hr2.2.2, h1.2]

/-- The calls of the theorem, on a new allocator. -/
example :
    ∃ m H m' H' p m'' H'', Mal.create malE bumpA ⟨[], 0⟩ = .ok (m, H) ∧ Mal.alloc malE bumpA H m 0 = .ok (m', H', p) ∧
      Mal.free malE H' m' p = .ok (m'', H'') ∧ m''.objs = [] ∧ m''.stats.allocs = 1 ∧ m''.stats.frees = 0 :=
  ⟨⟨1, 2, [], 16, {}⟩, ⟨[(2, 256), (1, 88)], 2⟩, ⟨1, 2, [(3, 0)], 16, ⟨1, 0, 0, 0, 0⟩⟩, ⟨[(3, 0), (2, 256), (1, 88)], 3⟩, 3,
    ⟨1, 2, [], 16, ⟨1, 0, 0, 0, 0⟩⟩, ⟨[(2, 256), (1, 88)], 4⟩, by decide +kernel⟩

/-- Example: two allocations, one shrinking reallocation, one free; the hypothesis of the theorems holds with a live block left. -/
example : ∃ m H, Hist malE bumpA m H ⟨[(5, 4)], 2, 1, 1, 13, []⟩ := by
  have h0 : Hist malE bumpA ⟨1, 2, [], 16, {}⟩ ⟨[(2, 256), (1, 88)], 2⟩ ⟨[], 0, 0, 0, 0, []⟩ :=
    Hist.create (H := ⟨[], 0⟩) (by simp [Heap.addrs]) (by decide +kernel)
  have h1 := Hist.alloc (n := 10) (m' := ⟨1, 2, [(3, 10)], 16, ⟨1, 0, 0, 10, 0⟩⟩) (H' := ⟨[(3, 10), (2, 256), (1, 88)], 3⟩) (p := 3) h0
    (by decide) (by decide +kernel)
  have h2 := Hist.alloc (n := 7) (m' := ⟨1, 2, [(3, 10), (4, 7)], 16, ⟨2, 0, 0, 17, 0⟩⟩)
    (H' := ⟨[(4, 7), (3, 10), (2, 256), (1, 88)], 4⟩) (p := 4) h1 (by decide) (by decide +kernel)
  have h3 := Hist.free (q := 3) (m' := ⟨1, 2, [(4, 7)], 16, ⟨2, 0, 1, 7, 10⟩⟩)
    (H' := ⟨[(4, 7), (2, 256), (1, 88)], 5⟩) h2 (by decide) (by decide +kernel)
  have h4 := Hist.realloc (q := 4) (n := 4) (m' := ⟨1, 2, [(5, 4)], 16, ⟨2, 1, 1, 4, 13⟩⟩)
    (H' := ⟨[(5, 4), (2, 256), (1, 88)], 6⟩) (p := 5) h3 (by decide) (by decide) (by decide +kernel)
  exact ⟨_, _, h4⟩

/-! ### C39 -/

theorem hFree_ok {H : Heap} {q s : Nat} {r : List (Nat × Nat)} (hd : H.addrs.Nodup) (hq : q ≠ 0) (hp : H.blocks.Perm ((q, s) :: r)) :
    ∃ H', hFree H q = .ok H' ∧ H'.addrs.Nodup ∧ H'.blocks.Perm r := by
  have hm : q ∈ H.addrs := (hp.map (·.1)).mem_iff.2 (by simp)
  unfold hFree
  rw [if_neg hq, if_neg (not_not.2 hm)]
  exact ⟨_, rfl, nodup_filter _ hd, perm_filter_block hd hp⟩

theorem freeAll_ok : ∀ (l : List (Nat × Nat)) (H : Heap) (r : List (Nat × Nat)), H.addrs.Nodup → 0 ∉ l.map (·.1) →
    H.blocks.Perm (l ++ r) → ∃ H', freeAll H l = .ok H' ∧ H'.addrs.Nodup ∧ H'.blocks.Perm r
  | [], H, r, hd, _, hp => ⟨H, rfl, hd, hp⟩
  | (q, s) :: l, H, r, hd, h0, hp => by
    simp only [List.map_cons, List.mem_cons, not_or] at h0
    obtain ⟨H1, e1, hd1, hp1⟩ := hFree_ok hd (fun e => h0.1 e.symm) hp
    obtain ⟨H2, e2, hd2, hp2⟩ := freeAll_ok l H1 r hd1 h0.2 hp1
    refine ⟨H2, ?_, hd2, hp2⟩
    rw [freeAll, e1, bind_ok, e2]

theorem InvCore.destroy {E : Env} {m : T} {H : Heap} {L : Ledger} (hi : InvCore E m H L) :
    ∃ H', Mal.destroy H m = .ok H' ∧ H'.blocks.Perm L.outside := by
  have hp : H.blocks.Perm (m.objs ++ ((m.table, m.cap * objSize) :: (m.self, structSize) :: L.outside)) := by
    refine hi.heap.trans ?_
    rw [List.append_assoc]
    refine List.Perm.append hi.objs.symm ?_
    exact List.perm_append_comm (l₂ := [_, _])
  obtain ⟨H1, e1, d1, p1⟩ := freeAll_ok m.objs H _ hi.nodup
    (fun g => hi.nz.2.2 ((hi.objs.map (·.1)).mem_iff.1 g)) hp
  obtain ⟨H2, e2, d2, p2⟩ := hFree_ok d1 hi.nz.1 p1
  obtain ⟨H3, e3, d3, p3⟩ := hFree_ok d2 hi.nz.2.1 p2
  refine ⟨H3, ?_, p3⟩
  rw [Mal.destroy, e1, bind_ok, e2, bind_ok, e3]

/-- **C39.** After every history, destroying the allocator succeeds (freeing a block twice or freeing something that is not a block
would be undefined) and leaves exactly the blocks of the rest of the program: every block obtained from the allocator
and not yet freed is released, and the allocator's own blocks too, and nothing else. -/
theorem C39_destroy {E : Env} {A : Allocator} {m : T} {H : Heap} {L : Ledger} (h : Hist E A m H L) :
    ∃ H', Mal.destroy H m = .ok H' ∧ H'.blocks.Perm L.outside :=
  (hist_inv h).toInvCore.destroy

/-- Freeing a block twice is caught by the model: the second free is undefined. -/
theorem hFree_twice {H H' : Heap} {q : Nat} (hq : q ≠ 0) (h : hFree H q = .ok H') : hFree H' q = .ub := by
  unfold hFree at *
  rw [if_neg hq] at *
  split at h
  · simp at h
  · simp only [Out.ok.injEq] at h
    subst h
    rw [if_pos]
    simp only [Heap.addrs]
    rw [mem_map_filter_ne]
    simp

end Vita
