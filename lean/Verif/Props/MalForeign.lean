import Verif.Props.Mallocator
/-!
# Property C130: blocks of other origin given to the allocator

`vt_mallocator_realloc` and `vt_mallocator_free` do not insist on blocks that the allocator handed out.  This file says what happens with other
live blocks of the program, and with NULL.
-/

namespace Vita
open Out Mal

seal wadd wsub wmul

/-- `Mixed E A m H L k`: as `Hist`, but blocks of the rest of the program may be given to the allocator too, to be reallocated or freed, and in
release builds NULL to be reallocated; `k` counts the blocks that came to the allocator by reallocation. -/
inductive Mixed (E : Env) (A : Allocator) : T → Heap → Ledger → Nat → Prop
  | create {H m H'} (hd : H.addrs.Nodup) (h0 : 0 ∉ H.addrs) (h : Mal.create E A H = .ok (m, H')) : Mixed E A m H' ⟨[], 0, 0, 0, 0, H.blocks⟩ 0
  | alloc {m H L k n m' H' p} (h : Mixed E A m H L k) (hn : 0 < n) (e : Mal.alloc E A H m n = .ok (m', H', p)) :
      Mixed E A m' H' { L with live := (p, n) :: L.live, allocs := L.allocs + 1 } k
  | realloc {m H L k q n m' H' p} (h : Mixed E A m H L k) (hn : 0 < n) (hq : q ∈ L.live.map (·.1))
      (e : Mal.realloc E A H m q n = .ok (m', H', p)) :
      Mixed E A m' H' { L with live := (p, n) :: L.live.filter (·.1 ≠ q), reallocs := L.reallocs + 1,
                               released := L.released + (L.size q - n) } k
  | free {m H L k q m' H'} (h : Mixed E A m H L k) (hq : q ∈ L.live.map (·.1)) (e : Mal.free E H m q = .ok (m', H')) :
      Mixed E A m' H' { L with live := L.live.filter (·.1 ≠ q), frees := L.frees + 1, released := L.released + L.size q } k
  | otherAlloc {m H L k n H' p} (h : Mixed E A m H L k) (e : hCalloc E A H n = .ok (H', p)) :
      Mixed E A m H' { L with outside := (p, n) :: L.outside } k
  | otherFree {m H L k q H'} (h : Mixed E A m H L k) (hq : q ∈ L.outside.map (·.1)) (e : hFree H q = .ok H') :
      Mixed E A m H' { L with outside := L.outside.filter (·.1 ≠ q) } k
  /-- A block of other origin, or NULL, is reallocated. -/
  | adopt {m H L k q n m' H' p} (h : Mixed E A m H L k) (hn : 0 < n) (hq : q = 0 ∨ q ∈ L.outside.map (·.1))
      (e : Mal.realloc E A H m q n = .ok (m', H', p)) :
      Mixed E A m' H' { L with live := (p, n) :: L.live, outside := L.outside.filter (·.1 ≠ q), reallocs := L.reallocs + 1 } (k + 1)
  /-- A block of other origin is freed through the allocator. -/
  | freeOther {m H L k q m' H'} (h : Mixed E A m H L k) (hq : q ∈ L.outside.map (·.1)) (e : Mal.free E H m q = .ok (m', H')) :
      Mixed E A m' H' { L with outside := L.outside.filter (·.1 ≠ q) } k

theorem findLoop_absent {q : Nat} : ∀ (l : List (Nat × Nat)) (i : Nat), q ∉ l.map (·.1) → findLoop l q i = none
  | [], _, _ => rfl
  | x :: l, i, h => by
    simp only [List.map_cons, List.mem_cons, not_or] at h
    rw [findLoop, if_neg (fun e => h.1 e.symm), findLoop_absent l (i + 1) h.2]

theorem objList_remove_absent {m : T} {q : Nat} (h : q ∉ m.objs.map (·.1)) : Mal.remove m q = .ok (m, 0) := by
  unfold Mal.remove
  split
  · rw [findLoop_absent _ _ h]
  · rfl

/-- What is known in every state: the ledger agrees with the allocator and the heap, no block is at NULL, and the counting. -/
structure MixedInv (E : Env) (m : T) (H : Heap) (L : Ledger) (k : Nat) : Prop extends InvCore E m H L where
  zero : 0 ∉ L.outside.map (·.1)
  count : L.allocs + k = L.frees + L.live.length

/-- A block that the allocator does not know: it is not one of its own. -/
theorem InvCore.foreign {E : Env} {m : T} {H : Heap} {L : Ledger} {q : Nat} (h : InvCore E m H L) (hq : q ∈ L.outside.map (·.1)) :
    q ∉ L.live.map (·.1) ∧ q ∉ [m.table, m.self] := by
  have d1 := List.nodup_append.1 h.nodup'
  have d2 := List.nodup_append.1 d1.1
  exact ⟨fun g => d2.2.2 _ g _ hq rfl, fun g => d1.2.2 _ (List.mem_append_right _ hq) _ g rfl⟩

theorem InvCore.without {E : Env} {m : T} {H : Heap} {L : Ledger} {q : Nat} (h : InvCore E m H L) (q1 : q ∉ L.live.map (·.1)) (q2 : q ∉ [m.table, m.self]) :
    (H.blocks.filter (·.1 ≠ q)).Perm (L.live ++ L.outside.filter (·.1 ≠ q) ++ [(m.table, m.cap * objSize), (m.self, structSize)]) := by
  refine (h.heap.filter (·.1 ≠ q)).trans ?_
  rw [List.filter_append, List.filter_append, filter_ne_self q1, filter_ne_self (l := [(m.table, _), (m.self, _)]) (by simpa using q2)]

theorem MixedInv.adopt {E : Env} {A : Allocator} {m : T} {H : Heap} {L : Ledger} {k q n : Nat} (h : MixedInv E m H L k) (hn : 0 < n)
    (hq : q ∈ L.outside.map (·.1) ∨ q = 0 ∧ E.debug = false) :
    Mal.realloc E A H m q n = .exit .alloc ∨ ∃ m' H' p, Mal.realloc E A H m q n = .ok (m', H', p) ∧
      MixedInv E m' H' { L with live := (p, n) :: L.live, outside := L.outside.filter (·.1 ≠ q), reallocs := L.reallocs + 1 } (k + 1) := by
  have hqs : q ∉ L.live.map (·.1) ∧ q ∉ [m.table, m.self] ∧ ¬ (q ≠ 0 ∧ q ∉ H.addrs) ∧ dassert E (q != 0) = .ok () := by
    rcases hq with hq | ⟨rfl, hE⟩
    · obtain ⟨q1, q2⟩ := h.toInvCore.foreign hq
      have hq0 : q ≠ 0 := by rintro rfl; exact h.zero hq
      refine ⟨q1, q2, fun g => g.2 (h.addrs_perm.mem_iff.2 (by simp [hq])), ?_⟩
      rw [show (q != 0) = true by simpa using hq0, dassert_true]
    · refine ⟨h.nz.2.2, ?_, fun g => g.1 rfl, ?_⟩
      · simp only [List.mem_cons, List.not_mem_nil, or_false, not_or]
        exact ⟨fun e => h.nz.1 e.symm, fun e => h.nz.2.1 e.symm⟩
      · rw [dassert_release hE]
  obtain ⟨q1, q2, q3, q4⟩ := hqs
  have hp := h.toInvCore.without q1 q2
  have hno : q ∉ m.objs.map (·.1) := fun g => q1 ((h.objs.map (·.1)).mem_iff.1 g)
  unfold Mal.realloc
  simp only [q4, decide_eq_true (show n > 0 from hn), dassert_true, cassert_true, bind_ok, objList_remove_absent hno, hRealloc, if_neg q3]
  rw [if_neg (by omega)]
  by_cases ha : E.allocOk n = true
  swap
  · left; rw [if_neg ha]; simp
  rw [if_pos ha]
  simp only [bind_ok]
  obtain ⟨f1, f2⟩ := A.realloc_fresh H q n
  generalize hp' : A.realloc H q n = p at *
  have hfresh : p ∉ (H.blocks.filter (·.1 ≠ q)).map (·.1) := by
    rw [mem_map_filter_ne]
    rintro ⟨g1, g2⟩
    rcases f2 with f2 | f2
    · exact g2 f2
    · exact f2 g1
  have key := objList_add_ok (E := E) (A := A) (m := m) (H := ⟨(p, n) :: H.blocks.filter (·.1 ≠ q), H.tick + 1⟩)
    (rest := (p, n) :: (L.live ++ L.outside.filter (·.1 ≠ q) ++ [(m.self, structSize)])) (obj := (p, n))
    (by
      refine (List.Perm.cons _ hp).trans ?_
      refine (List.Perm.cons _ ?_).trans (List.Perm.swap _ _ _)
      exact List.perm_middle (l₁ := L.live ++ L.outside.filter (·.1 ≠ q)) (l₂ := [(m.self, structSize)]))
    (List.nodup_cons.2 ⟨hfresh, nodup_filter _ h.nodup⟩) h.nz.1 h.len h.cap
  rcases key with key | ⟨t, c, H', e, g1, g2, g3, g4, g5⟩
  · left; rw [key]; simp
  right
  rw [e]
  simp only [bind_ok]
  refine ⟨_, _, _, rfl, ?_⟩
  have hn1 := E.lim _ ha
  refine ⟨⟨?_, ?_, g2, ?_, ?_, ⟨by simp only; omega, g5⟩, ?_, h.allocs, ?_, h.frees, ?_, ?_⟩, ?_, ?_⟩
  · exact (List.perm_append_comm (l₁ := m.objs) (l₂ := [(p, n)])).trans (List.Perm.cons _ h.objs)
  · refine g1.trans ?_
    simp only [List.cons_append]
    refine (List.Perm.swap _ _ _).trans (List.Perm.cons _ ?_)
    exact (List.perm_middle (l₁ := L.live ++ L.outside.filter (·.1 ≠ q)) (l₂ := [(m.self, structSize)])).symm
  · exact ⟨g3, h.nz.2.1, by simpa using ⟨fun e => f1 e.symm, by simpa using h.nz.2.2⟩⟩
  · simpa using g4
  · intro x hx
    rcases List.mem_cons.1 hx with rfl | hx
    · exact ⟨hn, hn1⟩
    · exact h.sizes x hx
  · simp only [h.reallocs, wadd]; omega
  · simp only [h.bytes, wadd, wsub, total_cons]; omega
  · have : wsub n 0 < 2 ^ 63 := by simp only [wsub]; omega
    have hf := h.freed
    have hlt : m.stats.bytesFreed < 2 ^ 64 := by rw [hf]; omega
    simp only [if_neg (Nat.not_le.2 this)]
    unfold wsub
    omega
  · simp only [mem_map_filter_ne]
    exact fun g => h.zero g.1
  · simp only [List.length_cons, ← Nat.add_assoc, h.count]

theorem MixedInv.freeOther {E : Env} {m : T} {H : Heap} {L : Ledger} {k q : Nat} (h : MixedInv E m H L k) (hq : q ∈ L.outside.map (·.1)) :
    ∃ H', Mal.free E H m q = .ok (m, H') ∧ MixedInv E m H' { L with outside := L.outside.filter (·.1 ≠ q) } k := by
  obtain ⟨q1, q2⟩ := h.toInvCore.foreign hq
  have hq0 : q ≠ 0 := by rintro rfl; exact h.zero hq
  have hno : q ∉ m.objs.map (·.1) := fun g => q1 ((h.objs.map (·.1)).mem_iff.1 g)
  have hqH : q ∈ H.addrs := h.addrs_perm.mem_iff.2 (by simp [hq])
  refine ⟨⟨H.blocks.filter (·.1 ≠ q), H.tick + 1⟩, ?_, { h with heap := h.toInvCore.without q1 q2, nodup := nodup_filter _ h.nodup, zero := ?_ }⟩
  · unfold Mal.free
    simp only [show (q != 0) = true by simpa using hq0, dassert_true, bind_ok, objList_remove_absent hno, hFree, if_neg hq0, if_neg (not_not.2 hqH)]
    rfl
  · simp only [mem_map_filter_ne]
    exact fun g => h.zero g.1

theorem mixed_inv {E : Env} {A : Allocator} {m : T} {H : Heap} {L : Ledger} {k : Nat} (h : Mixed E A m H L k) : MixedInv E m H L k := by
  induction h with
  | create hd h0 h => exact ⟨(Inv.create hd h).toInvCore, h0, rfl⟩
  | alloc _ hn e ih =>
    rcases ih.toInvCore.alloc (A := A) hn with h | ⟨m', H', p, h, hi⟩
    · rw [h] at e; simp at e
    · rw [h] at e
      simp only [Out.ok.injEq, Prod.mk.injEq] at e
      obtain ⟨rfl, rfl, rfl⟩ := e
      exact ⟨hi, ih.zero, by have := ih.count; simp only [List.length_cons]; omega⟩
  | realloc _ hn hq e ih =>
    obtain ⟨-, -, -, -, -, -, -, -, -, -, -, -, -, hlen⟩ := ih.toInvCore.take hq
    rcases ih.toInvCore.realloc (A := A) hn hq with h | ⟨m', H', p, h, hi⟩
    · rw [h] at e; simp at e
    · rw [h] at e
      simp only [Out.ok.injEq, Prod.mk.injEq] at e
      obtain ⟨rfl, rfl, rfl⟩ := e
      exact ⟨hi, ih.zero, by have := ih.count; simp only [List.length_cons]; omega⟩
  | free _ hq e ih =>
    obtain ⟨-, -, -, -, -, -, -, -, -, -, -, -, -, hlen⟩ := ih.toInvCore.take hq
    obtain ⟨m', H', h, hi⟩ := ih.toInvCore.free hq
    rw [h] at e
    simp only [Out.ok.injEq, Prod.mk.injEq] at e
    obtain ⟨rfl, rfl⟩ := e
    exact ⟨hi, ih.zero, by have := ih.count; simp only; omega⟩
  | @otherAlloc m H L k n H' p _ e ih =>
    unfold hCalloc at e
    simp only [bind_eq_ok] at e
    obtain ⟨-, -, e⟩ := e
    split at e
    · simp only [Out.ok.injEq, Prod.mk.injEq] at e
      obtain ⟨rfl, rfl⟩ := e
      obtain ⟨f1, f2⟩ := A.calloc_fresh H n
      refine { ih with heap := ?_, nodup := List.nodup_cons.2 ⟨f2, ih.nodup⟩, zero := ?_ }
      · refine (List.Perm.cons _ ih.heap).trans ?_
        simp only [List.append_assoc, List.cons_append]
        exact (List.perm_middle (l₁ := L.live)).symm
      · simp only [List.map_cons, List.mem_cons, not_or]
        exact ⟨fun e => f1 e.symm, ih.zero⟩
    · simp at e
  | @otherFree m H L k q H' _ hq e ih =>
    unfold hFree at e
    obtain ⟨q1, q2⟩ := ih.toInvCore.foreign hq
    rw [if_neg (by rintro rfl; exact ih.zero hq)] at e
    split at e
    · simp at e
    · simp only [Out.ok.injEq] at e
      subst e
      refine { ih with heap := ih.toInvCore.without q1 q2, nodup := nodup_filter _ ih.nodup, zero := ?_ }
      simp only [mem_map_filter_ne]
      exact fun g => ih.zero g.1
  | @adopt m H L k q n m' H' p _ hn hq e ih =>
    have hq' : q ∈ L.outside.map (·.1) ∨ q = 0 ∧ E.debug = false := by
      rcases hq with rfl | hq
      · right
        refine ⟨rfl, ?_⟩
        cases hE : E.debug with
        | false => rfl
        | true => simp [Mal.realloc, dassert_false hE] at e
      · exact .inl hq
    rcases ih.adopt (A := A) hn hq' with h | ⟨m', H', p, h, hi⟩
    · rw [h] at e; simp at e
    · rw [h] at e
      simp only [Out.ok.injEq, Prod.mk.injEq] at e
      obtain ⟨rfl, rfl, rfl⟩ := e
      exact hi
  | freeOther _ hq e ih =>
    obtain ⟨H', h, hi⟩ := ih.freeOther hq
    rw [h] at e
    simp only [Out.ok.injEq, Prod.mk.injEq] at e
    obtain ⟨rfl, rfl⟩ := e
    exact hi

/-- **C130** After every history, also one in which blocks of other origin were given to the allocator: the outstanding bytes are the sizes of the
tracked blocks added up, the tracked blocks are exactly the blocks obtained from the allocator by allocation or reallocation and not yet freed, and their
number is that of the allocations and of the blocks taken over, less the frees. -/
theorem C130_stats {E : Env} {A : Allocator} {m : T} {H : Heap} {L : Ledger} {k : Nat} (h : Mixed E A m H L k) :
    m.stats.bytesAllocated = (L.live.map (·.2)).sum % 2 ^ 64 ∧ m.objs.Perm L.live ∧
    wsub (wadd m.stats.allocs k) m.stats.frees = L.live.length ∧ m.stats.bytesFreed = L.released % 2 ^ 64 := by
  have hi := mixed_inv h
  refine ⟨hi.bytes, hi.objs, ?_, hi.freed⟩
  have h1 := hi.len
  have h2 := hi.cap.2
  have h3 := hi.count
  have h4 := hi.objs.length_eq
  unfold objSize at h2
  rw [hi.allocs, hi.frees, wsub, wadd]
  omega

/-- **C130** So allocations less frees is the number of live blocks only if none was taken over: it falls short of it by their number. -/
theorem C130_count {E : Env} {A : Allocator} {m : T} {H : Heap} {L : Ledger} {k : Nat} (h : Mixed E A m H L k) (hk : k < 2 ^ 64) :
    wsub m.stats.allocs m.stats.frees = L.live.length ↔ k = 0 := by
  have hi := mixed_inv h
  have h1 := hi.len
  have h2 := hi.cap.2
  have h3 := hi.count
  have h4 := hi.objs.length_eq
  unfold objSize at h2
  rw [hi.allocs, hi.frees, wsub]
  omega

/-- **C130** No such call is undefined: blocks of other origin can be reallocated, unless memory is refused, and freed; freeing changes nothing in the
allocator, and the block is gone from the heap. -/
theorem C130_calls_succeed {E : Env} {A : Allocator} {m : T} {H : Heap} {L : Ledger} {k : Nat} (h : Mixed E A m H L k) :
    (∀ n, 0 < n → Mal.alloc E A H m n = .exit .alloc ∨ ∃ r, Mal.alloc E A H m n = .ok r) ∧
    (∀ q ∈ L.live.map (·.1) ++ L.outside.map (·.1), ∀ n, 0 < n → Mal.realloc E A H m q n = .exit .alloc ∨ ∃ r, Mal.realloc E A H m q n = .ok r) ∧
    (∀ q ∈ L.live.map (·.1), ∃ r, Mal.free E H m q = .ok r) ∧
    (∀ q ∈ L.outside.map (·.1), ∃ H', Mal.free E H m q = .ok (m, H') ∧
      H'.blocks.Perm (L.live ++ L.outside.filter (·.1 ≠ q) ++ [(m.table, m.cap * objSize), (m.self, structSize)])) := by
  have hi := mixed_inv h
  refine ⟨fun n hn => ?_, fun q hq n hn => ?_, fun q hq => ?_, fun q hq => ?_⟩
  · rcases hi.toInvCore.alloc (A := A) hn with h | ⟨m', H', p, h, -⟩
    · exact .inl h
    · exact .inr ⟨_, h⟩
  · rcases List.mem_append.1 hq with hq | hq
    · rcases hi.toInvCore.realloc (A := A) hn hq with h | ⟨m', H', p, h, -⟩
      · exact .inl h
      · exact .inr ⟨_, h⟩
    · rcases hi.adopt (A := A) hn (.inl hq) with h | ⟨m', H', p, h, -⟩
      · exact .inl h
      · exact .inr ⟨_, h⟩
  · obtain ⟨m', H', h, -⟩ := hi.toInvCore.free hq
    exact ⟨_, h⟩
  · obtain ⟨H', h, hj⟩ := hi.freeOther hq
    exact ⟨H', h, hj.heap⟩

/-- **C130** Destroying the allocator frees what it took over too, and leaves exactly the other blocks of the program. -/
theorem C130_destroy {E : Env} {A : Allocator} {m : T} {H : Heap} {L : Ledger} {k : Nat} (h : Mixed E A m H L k) :
    ∃ H', Mal.destroy H m = .ok H' ∧ H'.blocks.Perm L.outside :=
  (mixed_inv h).toInvCore.destroy

/-- **C130** NULL: in release builds reallocating it allocates, which is counted as a reallocation, and freeing it does nothing; debug builds end the program. -/
theorem C130_null {E : Env} {A : Allocator} {m : T} {H : Heap} {L : Ledger} {k : Nat} (h : Mixed E A m H L k) {n : Nat} (hn : 0 < n) :
    (E.debug = true → Mal.realloc E A H m 0 n = .exit .dbgAssert ∧ Mal.free E H m 0 = .exit .dbgAssert) ∧
    (E.debug = false → Mal.free E H m 0 = .ok (m, H) ∧
      (Mal.realloc E A H m 0 n = .exit .alloc ∨ ∃ m' H' p, Mal.realloc E A H m 0 n = .ok (m', H', p) ∧ p ∉ H.addrs ∧
        m'.stats = { m.stats with reallocs := wadd m.stats.reallocs 1, bytesAllocated := wadd m.stats.bytesAllocated n })) := by
  have hi := mixed_inv h
  constructor
  · intro hE
    exact ⟨by simp [Mal.realloc, dassert_false hE], by simp [Mal.free, dassert_false hE]⟩
  · intro hE
    have hno : (0 : Nat) ∉ m.objs.map (·.1) := fun g => hi.nz.2.2 ((hi.objs.map (·.1)).mem_iff.1 g)
    refine ⟨by simp [Mal.free, dassert_release hE, objList_remove_absent hno, hFree], ?_⟩
    rcases hi.adopt (A := A) (q := 0) hn (.inr ⟨rfl, hE⟩) with h | ⟨m', H', p, h, hj⟩
    · exact .inl h
    right
    refine ⟨m', H', p, h, ?_, ?_⟩
    · have hp : p = A.realloc H 0 n := by
        unfold Mal.realloc hRealloc at h
        simp only [bind_eq_ok] at h
        obtain ⟨_, -, _, -, ⟨m1, o⟩, -, ⟨H1, p1⟩, ⟨_, -, h1⟩, ⟨m2, H2⟩, -, h2⟩ := h
        rw [if_neg (fun g => g.1 rfl), if_neg (by omega)] at h1
        split at h1
        · injection h1 with h1
          injection h2 with h2
          rw [← (Prod.mk.inj (Prod.mk.inj h2).2).2, ← (Prod.mk.inj h1).2]
        · cases h1
      obtain ⟨f1, f2⟩ := A.realloc_fresh H 0 n
      rw [hp]
      exact f2.resolve_left f1
    · have e1 := hj.allocs
      have e2 := hj.reallocs
      have e3 := hj.frees
      have e4 := hj.bytes
      have e5 := hj.freed
      simp only [total_cons] at e1 e2 e3 e4 e5
      have a1 := hi.allocs
      have a2 := hi.reallocs
      have a3 := hi.frees
      have a4 := hi.bytes
      have a5 := hi.freed
      cases hm : m'.stats
      simp only [hm] at e1 e2 e3 e4 e5
      simp only [Stats.mk.injEq, wadd]
      omega

/-- Example: a program has a block at 9; it makes an allocator, allocates, reallocates its own block through the allocator, frees it there; the counters say one
allocation and one free although one block is live. -/
example : ∃ m H, Mixed malE bumpA m H ⟨[(12, 5)], 1, 1, 1, 6, []⟩ 1 ∧ m.stats = ⟨1, 1, 1, 5, 6⟩ := by
  have h0 : Mixed malE bumpA ⟨10, 11, [], 16, {}⟩ ⟨[(11, 256), (10, 88), (9, 4)], 2⟩ ⟨[], 0, 0, 0, 0, [(9, 4)]⟩ 0 :=
    Mixed.create (H := ⟨[(9, 4)], 0⟩) (by simp [Heap.addrs]) (by decide) (by decide +kernel)
  have h1 := Mixed.alloc (n := 5) (m' := ⟨10, 11, [(12, 5)], 16, ⟨1, 0, 0, 5, 0⟩⟩) (H' := ⟨[(12, 5), (11, 256), (10, 88), (9, 4)], 3⟩) (p := 12) h0
    (by decide) (by decide +kernel)
  have h2 := Mixed.adopt (q := 9) (n := 6) (m' := ⟨10, 11, [(12, 5), (13, 6)], 16, ⟨1, 1, 0, 11, 0⟩⟩)
    (H' := ⟨[(13, 6), (12, 5), (11, 256), (10, 88)], 4⟩) (p := 13) h1 (by decide) (by decide) (by decide +kernel)
  have h3 := Mixed.free (q := 13) (m' := ⟨10, 11, [(12, 5)], 16, ⟨1, 1, 1, 5, 6⟩⟩) (H' := ⟨[(12, 5), (11, 256), (10, 88)], 5⟩) h2
    (by decide) (by decide +kernel)
  exact ⟨_, _, h3, rfl⟩

end Vita
