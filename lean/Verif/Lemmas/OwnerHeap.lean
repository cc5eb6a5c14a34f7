import Verif.Lemmas.Owner
import Verif.Props.Mallocator
/-!
# Blocks owned by containers on the heap
-/

namespace Vita
open Out Mal Own

seal wadd wsub wmul

/-- A request of `n` bytes is granted (in debug builds it must not be empty). -/
def Granted (E : Env) (n : Nat) : Prop := E.allocOk n = true ∧ (E.debug = true → 0 < n)

/-- A table of the tracking allocator is refused. -/
def TableRefused (E : Env) : Prop := ∃ c, E.allocOk (2 * c * objSize) = false

/-- The memory of the program consists of the blocks `own` (with a flag for those of the tracking allocator), the blocks `base` of the rest of
the program and the two blocks of the tracking allocator itself; the allocator tracks exactly its blocks. -/
structure HeapHolds (S : Sys) (own : List (Bool × Nat × Nat)) (base : List (Nat × Nat)) : Prop where
  objs : S.mal.objs.Perm ((own.filter (·.1)).map (·.2))
  heap : S.heap.blocks.Perm (own.map (·.2) ++ base ++ [(S.mal.table, S.mal.cap * objSize), (S.mal.self, structSize)])
  nodup : S.heap.addrs.Nodup
  nz : S.mal.table ≠ 0 ∧ S.mal.self ≠ 0 ∧ ∀ x ∈ own, x.2.1 ≠ 0
  len : S.mal.objs.length ≤ S.mal.cap
  cap : 0 < S.mal.cap ∧ S.mal.cap * objSize < 2 ^ 56
  sizes : ∀ x ∈ own, x.2.2 < 2 ^ 56
  bytes : S.mal.stats.bytesAllocated = total ((own.filter (·.1)).map (·.2)) % 2 ^ 64

variable {E : Env} {A : Allocator} {S : Sys} {own own' : List (Bool × Nat × Nat)} {base : List (Nat × Nat)}

theorem HeapHolds.perm (h : HeapHolds S own base) (p : own.Perm own') : HeapHolds S own' base :=
  { objs := h.objs.trans ((p.filter _).map _)
    heap := h.heap.trans (((p.map _).append_right _).append_right _)
    nodup := h.nodup
    nz := ⟨h.nz.1, h.nz.2.1, fun x hx => h.nz.2.2 x (p.mem_iff.2 hx)⟩
    len := h.len
    cap := h.cap
    sizes := fun x hx => h.sizes x (p.mem_iff.2 hx)
    bytes := by rw [h.bytes, total_perm ((p.filter _).map _)] }

theorem HeapHolds.create {H : Heap} {m : T} {H' : Heap} (hd : H.addrs.Nodup) (e : Mal.create E A H = .ok (m, H')) : HeapHolds ⟨H', m⟩ [] H.blocks := by
  have h := Inv.create hd e
  exact ⟨h.objs, by simpa using h.heap, h.nodup, ⟨h.nz.1, h.nz.2.1, by simp⟩, h.len, h.cap, by simp, by simpa using h.bytes⟩

/-- Growing the object list: as `objList_add_ok`, with the reason of a failure. -/
theorem objList_add_cases {m : T} {H : Heap} {rest : List (Nat × Nat)} {obj : Nat × Nat}
    (hp : H.blocks.Perm ((m.table, m.cap * objSize) :: rest)) (hd : H.addrs.Nodup) (hnz : m.table ≠ 0) (hlen : m.objs.length ≤ m.cap)
    (hc : 0 < m.cap ∧ m.cap * objSize < 2 ^ 56) :
    (Mal.add E A H m obj = .exit .alloc ∧ TableRefused E) ∨
    ∃ t c H', Mal.add E A H m obj = .ok ({ m with table := t, cap := c, objs := m.objs ++ [obj] }, H') ∧
      H'.blocks.Perm ((t, c * objSize) :: rest) ∧ H'.addrs.Nodup ∧ t ≠ 0 ∧ m.objs.length + 1 ≤ c ∧ c * objSize < 2 ^ 56 := by
  rcases objList_add_ok (E := E) (A := A) (obj := obj) hp hd hnz hlen hc with h | h
  · refine Or.inl ⟨h, ?_⟩
    by_contra hn
    unfold TableRefused at hn
    push Not at hn
    have hmem : m.table ∈ H.addrs := (hp.map (·.1)).mem_iff.2 (by simp)
    have hcap : m.cap < 2 ^ 56 := by have := hc.2; unfold objSize at this; omega
    have w1 : wmul 2 m.cap = 2 * m.cap := wmul_eq (by omega)
    have w2 : wmul (2 * m.cap) objSize = 2 * m.cap * objSize := wmul_eq (by have := hc.2; unfold objSize at *; omega)
    have hpos : 0 < 2 * m.cap * objSize := by have := hc.1; unfold objSize; omega
    have hws : wsub m.cap m.objs.length = m.cap - m.objs.length := wsub_eq hlen (by omega)
    have ha : E.allocOk (2 * m.cap * objSize) = true := by simpa using hn m.cap
    unfold Mal.add at h
    by_cases hs : Mal.hasSpace m = true
    · have : m.objs.length < m.cap := by
        rw [Mal.hasSpace, hws] at hs
        simp at hs
        omega
      simp [hs, this] at h
    · simp only [Bool.not_eq_true] at hs
      simp only [hs, Bool.not_false, if_true, Mal.resize, w1, w2, decide_eq_true (show 2 * m.cap > 0 by omega), dassert_true, bind_ok, hRealloc,
        decide_eq_true (show 2 * m.cap * objSize > 0 from hpos), cassert_true, if_neg (fun g : m.table ≠ 0 ∧ m.table ∉ H.addrs => g.2 hmem), if_pos ha] at h
      rw [if_neg (by omega)] at h
      simp only [bind_ok] at h
      rw [if_pos (by omega)] at h
      simp at h
  · exact Or.inr h

theorem Granted.check {n : Nat} (h : Granted E n) : cassert E (decide (n > 0)) = .ok () ∧ dassert E (decide (n > 0)) = .ok () := by
  unfold cassert dassert
  cases hd : E.debug with
  | false => simp
  | true => have := h.2 hd; simp [this]

theorem filter_cons_flag (b : Bool) (x : Nat × Nat) (l : List (Bool × Nat × Nat)) :
    (((b, x) :: l).filter (·.1)).map (·.2) = if b then x :: (l.filter (·.1)).map (·.2) else (l.filter (·.1)).map (·.2) := by
  cases b <;> simp

theorem HeapHolds.alloc (h : HeapHolds S own base) (tr : Bool) {n : Nat} (hn : Granted E n) :
    (Own.alloc E A S tr n = .exit .alloc ∧ TableRefused E) ∨
    ∃ S' p, Own.alloc E A S tr n = .ok (S', p) ∧ HeapHolds S' ((tr, p, n) :: own) base := by
  obtain ⟨hc, hdc⟩ := hn.check
  obtain ⟨f1, f2⟩ := A.calloc_fresh S.heap n
  have hcal : hCalloc E A S.heap n = .ok (⟨(A.calloc S.heap n, n) :: S.heap.blocks, S.heap.tick + 1⟩, A.calloc S.heap n) := by
    unfold hCalloc
    rw [hc, bind_ok, if_pos hn.1]
  generalize hp : A.calloc S.heap n = p at *
  have hd : Heap.addrs ⟨(p, n) :: S.heap.blocks, S.heap.tick + 1⟩ = p :: S.heap.addrs := rfl
  have hheap : ((p, n) :: S.heap.blocks).Perm
      (((p, n) :: own.map (·.2)) ++ base ++ [(S.mal.table, S.mal.cap * objSize), (S.mal.self, structSize)]) := List.Perm.cons _ h.heap
  have hnz : ∀ x ∈ (tr, p, n) :: own, x.2.1 ≠ 0 := by
    intro x hx
    rcases List.mem_cons.1 hx with rfl | hx
    · exact f1
    · exact h.nz.2.2 x hx
  have hsz : ∀ x ∈ (tr, p, n) :: own, x.2.2 < 2 ^ 56 := by
    intro x hx
    rcases List.mem_cons.1 hx with rfl | hx
    · exact E.lim _ hn.1
    · exact h.sizes x hx
  unfold Own.alloc
  cases tr with
  | false =>
    right
    simp only [Bool.false_eq_true, if_false, hcal, bind_ok]
    refine ⟨_, _, rfl, ?_⟩
    exact { objs := by simpa using h.objs, heap := hheap, nodup := List.nodup_cons.2 ⟨f2, h.nodup⟩, nz := ⟨h.nz.1, h.nz.2.1, hnz⟩, len := h.len,
            cap := h.cap, sizes := hsz, bytes := by simpa using h.bytes }
  | true =>
    simp only [if_true]
    unfold Mal.alloc
    simp only [hdc, bind_ok, hcal]
    have key := objList_add_cases (E := E) (A := A) (m := S.mal) (H := ⟨(p, n) :: S.heap.blocks, S.heap.tick + 1⟩)
      (rest := (p, n) :: (own.map (·.2) ++ base ++ [(S.mal.self, structSize)])) (obj := (p, n))
      (by
        refine (List.Perm.cons _ h.heap).trans ?_
        refine (List.Perm.cons _ ?_).trans (List.Perm.swap _ _ _)
        exact List.perm_middle (l₁ := own.map (·.2) ++ base) (l₂ := [(S.mal.self, structSize)]))
      (by rw [hd]; exact List.nodup_cons.2 ⟨f2, h.nodup⟩) h.nz.1 h.len h.cap
    rcases key with ⟨key, ht⟩ | ⟨t, c, H', e, g1, g2, g3, g4, g5⟩
    · exact Or.inl ⟨by rw [key]; rfl, ht⟩
    right
    rw [e]
    simp only [bind_ok]
    refine ⟨_, _, rfl, ?_⟩
    constructor
    · simp only [filter_cons_flag, if_true]
      exact (List.perm_append_comm (l₁ := S.mal.objs) (l₂ := [(p, n)])).trans (List.Perm.cons _ h.objs)
    · refine g1.trans ?_
      simp only [List.map_cons, List.cons_append]
      refine (List.Perm.swap _ _ _).trans (List.Perm.cons _ ?_)
      exact (List.perm_middle (l₁ := own.map (·.2) ++ base) (l₂ := [(S.mal.self, structSize)])).symm
    · exact g2
    · exact ⟨g3, h.nz.2.1, hnz⟩
    · simpa using g4
    · exact ⟨by simp only; omega, g5⟩
    · exact hsz
    · simp only [filter_cons_flag, if_true, total_cons, h.bytes]
      unfold wadd
      omega

/-- Taking an owned block out. -/
theorem HeapHolds.block {b : Bool} {q s : Nat} (h : HeapHolds S ((b, q, s) :: own) base) : q ≠ 0 ∧ q ∈ S.heap.addrs ∧
    (S.heap.blocks.filter (·.1 ≠ q)).Perm (own.map (·.2) ++ base ++ [(S.mal.table, S.mal.cap * objSize), (S.mal.self, structSize)]) := by
  refine ⟨h.nz.2.2 _ (List.mem_cons_self ..), ?_, ?_⟩
  · exact ((h.heap.map Prod.fst).mem_iff (a := q)).2 (by simp)
  · refine perm_filter_block (s := s) h.nodup ?_
    simpa using h.heap

theorem HeapHolds.objs_nodup (h : HeapHolds S own base) : (S.mal.objs.map (·.1)).Nodup := by
  have h1 := (h.heap.map Prod.fst).nodup_iff.1 h.nodup
  have h2 := (h.objs.map Prod.fst).nodup_iff
  rw [h2]
  refine List.Nodup.sublist ?_ h1
  rw [List.append_assoc, List.map_append]
  refine List.Sublist.trans ?_ (List.sublist_append_left _ _)
  exact (List.filter_sublist.map _).map _

/-- Taking a tracked block out of the object list. -/
theorem HeapHolds.track {q s : Nat} (h : HeapHolds S ((true, q, s) :: own) base) : ∃ objs, Mal.remove S.mal q = .ok ({ S.mal with objs := objs }, s) ∧
    objs.Perm ((own.filter (·.1)).map (·.2)) ∧ objs.length + 1 = S.mal.objs.length := by
  have hp := h.objs
  simp only [filter_cons_flag, if_true] at hp
  have hq : q ∈ S.mal.objs.map (·.1) := (hp.map (·.1)).mem_iff.2 (by simp)
  obtain ⟨objs, s', e, p1, p2, fq⟩ := objList_remove_ok h.objs_nodup hq
  have hs : s' = s := by
    have h1 := perm_find hp h.objs_nodup hq
    rw [fq] at h1
    simpa using h1
  subst hs
  refine ⟨objs, e, ?_, ?_⟩
  · exact p2.trans (perm_filter_block h.objs_nodup hp)
  · have := p1.length_eq
    simp only [List.length_cons] at this
    omega

theorem HeapHolds.free {b : Bool} {q s : Nat} (h : HeapHolds S ((b, q, s) :: own) base) :
    ∃ S', Own.free E S b q = .ok S' ∧ HeapHolds S' own base := by
  obtain ⟨hq0, hqH, hp⟩ := h.block
  have hfree : hFree S.heap q = .ok ⟨S.heap.blocks.filter (·.1 ≠ q), S.heap.tick + 1⟩ := by
    unfold hFree
    rw [if_neg hq0, if_neg (not_not.2 hqH)]
  have hnz : ∀ x ∈ own, x.2.1 ≠ 0 := fun x hx => h.nz.2.2 x (List.mem_cons_of_mem _ hx)
  have hsz : ∀ x ∈ own, x.2.2 < 2 ^ 56 := fun x hx => h.sizes x (List.mem_cons_of_mem _ hx)
  unfold Own.free
  cases b with
  | false =>
    simp only [Bool.false_eq_true, if_false, hfree, bind_ok]
    refine ⟨_, rfl, ?_⟩
    exact { objs := by simpa using h.objs, heap := hp, nodup := nodup_filter _ h.nodup, nz := ⟨h.nz.1, h.nz.2.1, hnz⟩, len := h.len,
            cap := h.cap, sizes := hsz, bytes := by simpa using h.bytes }
  | true =>
    obtain ⟨objs, e, p3, hl⟩ := h.track
    simp only [if_true]
    unfold Mal.free
    have hne : (q != 0) = true := by simpa using hq0
    simp only [hne, dassert_true, bind_ok, e, hfree]
    refine ⟨_, rfl, ?_⟩
    have hb := h.bytes
    simp only [filter_cons_flag, if_true, total_cons] at hb
    refine { objs := p3, heap := hp, nodup := nodup_filter _ h.nodup, nz := ⟨h.nz.1, h.nz.2.1, hnz⟩,
             len := ?_, cap := h.cap, sizes := hsz, bytes := ?_ }
    · have := h.len; show objs.length ≤ S.mal.cap; omega
    · by_cases hs : s > 0
      · simp only [if_pos hs, hb]
        unfold wsub
        have := h.sizes _ (List.mem_cons_self ..)
        simp only at this
        omega
      · simp only [if_neg hs, hb]
        rw [show s = 0 by omega, Nat.zero_add]

theorem HeapHolds.realloc {b : Bool} {q s : Nat} (h : HeapHolds S ((b, q, s) :: own) base) {n : Nat} (hn : E.allocOk n = true) (h0 : 0 < n) :
    (Own.realloc E A S b q n = .exit .alloc ∧ TableRefused E) ∨
    ∃ S' p, Own.realloc E A S b q n = .ok (S', p) ∧ HeapHolds S' ((b, p, n) :: own) base := by
  obtain ⟨hq0, hqH, hp⟩ := h.block
  obtain ⟨f1, f2⟩ := A.realloc_fresh S.heap q n
  have hre : hRealloc E A S.heap q n = .ok (⟨(A.realloc S.heap q n, n) :: S.heap.blocks.filter (·.1 ≠ q), S.heap.tick + 1⟩,
      A.realloc S.heap q n) := by
    unfold hRealloc
    rw [decide_eq_true (show n > 0 from h0), cassert_true, bind_ok, if_neg (fun g => g.2 hqH), if_neg (by omega), if_pos hn]
  generalize hp' : A.realloc S.heap q n = p at *
  have hfresh : p ∉ (S.heap.blocks.filter (·.1 ≠ q)).map (·.1) := by
    rw [mem_map_filter_ne]
    rintro ⟨g1, g2⟩
    rcases f2 with f2 | f2
    · exact g2 f2
    · exact f2 g1
  have hnz : ∀ x ∈ (b, p, n) :: own, x.2.1 ≠ 0 := by
    intro x hx
    rcases List.mem_cons.1 hx with rfl | hx
    · exact f1
    · exact h.nz.2.2 x (List.mem_cons_of_mem _ hx)
  have hsz : ∀ x ∈ (b, p, n) :: own, x.2.2 < 2 ^ 56 := by
    intro x hx
    rcases List.mem_cons.1 hx with rfl | hx
    · exact E.lim _ hn
    · exact h.sizes x (List.mem_cons_of_mem _ hx)
  unfold Own.realloc
  cases b with
  | false =>
    right
    simp only [Bool.false_eq_true, if_false, hre, bind_ok]
    refine ⟨_, _, rfl, ?_⟩
    exact { objs := by simpa using h.objs, heap := List.Perm.cons _ hp, nodup := List.nodup_cons.2 ⟨hfresh, nodup_filter _ h.nodup⟩,
            nz := ⟨h.nz.1, h.nz.2.1, hnz⟩, len := h.len, cap := h.cap, sizes := hsz, bytes := by simpa using h.bytes }
  | true =>
    obtain ⟨objs, e, p3, hl⟩ := h.track
    simp only [if_true]
    unfold Mal.realloc
    have hne : (q != 0) = true := by simpa using hq0
    simp only [hne, decide_eq_true (show n > 0 from h0), dassert_true, bind_ok, e, hre]
    have key := objList_add_cases (E := E) (A := A) (m := { S.mal with objs := objs })
      (H := ⟨(p, n) :: S.heap.blocks.filter (·.1 ≠ q), S.heap.tick + 1⟩)
      (rest := (p, n) :: (own.map (·.2) ++ base ++ [(S.mal.self, structSize)])) (obj := (p, n))
      (by
        refine (List.Perm.cons _ hp).trans ?_
        refine (List.Perm.cons _ ?_).trans (List.Perm.swap _ _ _)
        exact List.perm_middle (l₁ := own.map (·.2) ++ base) (l₂ := [(S.mal.self, structSize)]))
      (List.nodup_cons.2 ⟨hfresh, nodup_filter _ h.nodup⟩) h.nz.1 (by have := h.len; show objs.length ≤ S.mal.cap; omega) h.cap
    rcases key with ⟨key, ht⟩ | ⟨t, c, H', e, g1, g2, g3, g4, g5⟩
    · exact Or.inl ⟨by rw [key]; rfl, ht⟩
    right
    rw [e]
    simp only [bind_ok]
    refine ⟨_, _, rfl, ?_⟩
    have hb := h.bytes
    simp only [filter_cons_flag, if_true, total_cons] at hb
    constructor
    · simp only [filter_cons_flag, if_true]
      exact (List.perm_append_comm (l₁ := objs) (l₂ := [(p, n)])).trans (List.Perm.cons _ p3)
    · refine g1.trans ?_
      simp only [List.map_cons, List.cons_append]
      refine (List.Perm.swap _ _ _).trans (List.Perm.cons _ ?_)
      exact (List.perm_middle (l₁ := own.map (·.2) ++ base) (l₂ := [(S.mal.self, structSize)])).symm
    · exact g2
    · exact ⟨g3, h.nz.2.1, hnz⟩
    · simpa using g4
    · exact ⟨by simp only; omega, g5⟩
    · exact hsz
    · have h1 := h.sizes _ (List.mem_cons_self ..)
      have h2 := E.lim _ hn
      simp only at h1
      simp only [filter_cons_flag, if_true, total_cons, hb]
      unfold wadd wsub
      omega

/-! ### The requests of a call -/

theorem reallocs_ok (tr : Bool) : ∀ (l : List Nat) (S : Sys) (p s : Nat), HeapHolds S ((tr, p, s) :: own) base →
    (∀ n ∈ l, E.allocOk n = true ∧ 0 < n) →
    (reallocs E A tr S p l = .exit .alloc ∧ TableRefused E) ∨
    ∃ S' q, reallocs E A tr S p l = .ok (S', q) ∧ HeapHolds S' ((tr, q, lastSize s l) :: own) base
  | [], S, p, s, h, _ => Or.inr ⟨S, p, rfl, h⟩
  | n :: l, S, p, s, h, hl => by
    obtain ⟨hn, h0⟩ := hl n (List.mem_cons_self ..)
    unfold reallocs
    rcases h.realloc (A := A) hn h0 with ⟨e, ht⟩ | ⟨S1, q, e, h1⟩
    · exact Or.inl ⟨by rw [e]; rfl, ht⟩
    · rw [e, bind_ok]
      have := reallocs_ok tr l S1 q n h1 fun x hx => hl x (List.mem_cons_of_mem _ hx)
      have hls : lastSize s (n :: l) = lastSize n l := by
        unfold lastSize
        cases l <;> simp [List.getLast?_cons]
      rw [hls]
      exact this

theorem perform_ok (tr : Bool) : ∀ (rs : List Req) (S : Sys) (p s : Nat), HeapHolds S ((tr, p, s) :: own) base →
    (∀ k ∈ reqSizes rs, E.allocOk k = true) → ReqPos E rs →
    (perform E A tr S p rs = .exit .alloc ∧ TableRefused E) ∨
    ∃ S' q, perform E A tr S p rs = .ok (S', q) ∧ HeapHolds S' ((tr, q, reqFinal s rs) :: own) base
  | [], S, p, s, h, _, _ => Or.inr ⟨S, p, rfl, h⟩
  | .own n :: rs, S, p, s, h, hg, hpos => by
    unfold perform
    rcases h.realloc (A := A) (hg n (by simp [reqSizes])) hpos.1 with ⟨e, ht⟩ | ⟨S1, q, e, h1⟩
    · exact Or.inl ⟨by rw [e]; rfl, ht⟩
    · rw [e, bind_ok]
      exact perform_ok tr rs S1 q n h1 (fun k hk => hg k (by simp [reqSizes, hk])) hpos.2
  | .tmp n :: rs, S, p, s, h, hg, hpos => by
    unfold perform
    rcases h.alloc (A := A) false (n := n) ⟨hg n (by simp [reqSizes]), hpos.1⟩ with ⟨e, ht⟩ | ⟨S1, t, e, h1⟩
    · exact Or.inl ⟨by rw [e]; rfl, ht⟩
    · rw [e, bind_ok]
      obtain ⟨S2, e2, h2⟩ := h1.free (E := E)
      simp only [e2, bind_ok]
      exact perform_ok tr rs S2 p s h2 (fun k hk => hg k (by simp [reqSizes, hk])) hpos.2
  | .tmpStr n k inner :: rs, S, p, s, h, hg, hpos => by
    unfold perform
    obtain ⟨p1, p2, p3, p4⟩ := hpos
    rcases h.alloc (A := A) tr (n := arrStructSize) ⟨hg _ (by simp [reqSizes]), fun _ => by simp [arrStructSize]⟩ with ⟨e, ht⟩ | ⟨S1, hd, e, h1⟩
    · exact Or.inl ⟨by rw [e]; rfl, ht⟩
    rw [e, bind_ok]
    rcases h1.alloc (A := A) tr (n := n) ⟨hg _ (by simp [reqSizes]), fun _ => p1⟩ with ⟨e, ht⟩ | ⟨S2, b, e, h2⟩
    · exact Or.inl ⟨by simp only [e]; rfl, ht⟩
    simp only [e, bind_ok]
    rcases h2.realloc (A := A) (n := k) (hg _ (by simp [reqSizes])) p2 with ⟨e, ht⟩ | ⟨S3, b', e, h3⟩
    · exact Or.inl ⟨by simp only [e]; rfl, ht⟩
    simp only [e, bind_ok]
    have h3' := h3.perm (own' := (tr, p, s) :: (tr, b', k) :: (tr, hd, arrStructSize) :: own)
      (by
        refine (List.Perm.cons _ (List.Perm.swap _ _ _)).trans ?_
        exact List.Perm.swap _ _ _)
    rcases reallocs_ok (A := A) (E := E) tr inner S3 p s h3' (fun x hx => ⟨hg x (by simp [reqSizes, hx]), p3 x hx⟩) with ⟨e, ht⟩ | ⟨S4, q, e, h4⟩
    · exact Or.inl ⟨by simp only [e]; rfl, ht⟩
    simp only [e, bind_ok]
    have h4' := h4.perm (own' := (tr, b', k) :: (tr, hd, arrStructSize) :: (tr, q, lastSize s inner) :: own)
      (by
        refine (List.Perm.swap _ _ _).trans ?_
        exact List.Perm.cons _ (List.Perm.swap _ _ _))
    obtain ⟨S5, e5, h5⟩ := h4'.free (E := E)
    simp only [e5, bind_ok]
    obtain ⟨S6, e6, h6⟩ := h5.free (E := E)
    simp only [e6, bind_ok]
    exact perform_ok tr rs S6 q _ h6 (fun x hx => hg x (by simp [reqSizes, hx])) p4

end Vita
