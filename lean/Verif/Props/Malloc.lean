import Mathlib.Data.List.Forall2
import Verif.Model.Malloc
import Verif.Props.Vec
/-!
# C144: `vt_malloc` instead of `vt_calloc`
-/

namespace Vita
namespace Malloc

/-- A byte that is known on the left is the same on the right. -/
def Known (a b : Byte) : Prop := a = none ∨ a = b

/-- Two blocks of one size; what is known of the first is true of the second. -/
abbrev Below (m m' : Mem) : Prop := List.Forall₂ Known m m'

/-- The same for all blocks of a program, of which the same have been freed. -/
inductive BelowO : Option Mem → Option Mem → Prop
  | freed : BelowO none none
  | live {m m' : Mem} (h : Below m m') : BelowO (some m) (some m')

abbrev BelowAll (H H' : Blocks) : Prop := List.Forall₂ BelowO H H'

/-- Unless something undefined happens on the left, the right has the same outcome. -/
def Like {α β : Type} (R : α → β → Prop) : Out α → Out β → Prop
  | .ok a, o => ∃ b, o = .ok b ∧ R a b
  | .exit w, o => o = .exit w
  | .fuel, o => o = .fuel
  | .ub, _ => True

theorem Like.bind {α β γ δ : Type} {R : α → β → Prop} {S : γ → δ → Prop} {x : Out α} {y : Out β}
    {f : α → Out γ} {g : β → Out δ} (h : Like R x y) (hf : ∀ a b, R a b → Like S (f a) (g b)) :
    Like S (x >>= f) (y >>= g) := by
  cases x with
  | ok a =>
    obtain ⟨b, rfl, hb⟩ := h
    exact hf a b hb
  | exit w => cases h; rfl
  | fuel => cases h; rfl
  | ub => trivial

theorem Like.refl {α : Type} (x : Out α) : Like (· = ·) x x := by
  cases x <;> simp [Like]

theorem below_refl (m : Mem) : Below m m := by
  induction m with
  | nil => exact .nil
  | cons a m ih => exact .cons (.inr rfl) ih

theorem below_replicate (n : Nat) : Below (List.replicate n none) (List.replicate n (some 0)) := by
  induction n with
  | zero => exact .nil
  | succ n ih => exact .cons (.inl rfl) ih

theorem below_append {a a' b b' : Mem} (h : Below a a') (g : Below b b') : Below (a ++ b) (a' ++ b') := by
  induction h with
  | nil => exact g
  | cons h _ ih => exact .cons h ih

theorem like_readN {m m' : Mem} (h : Below m m') (o n : Nat) : Like Below (readN m o n) (readN m' o n) := by
  unfold readN
  rw [h.length_eq]
  split
  · exact ⟨_, rfl, List.forall₂_take n (List.forall₂_drop o h)⟩
  · trivial

theorem like_writeN {m m' bs bs' : Mem} (h : Below m m') (hb : Below bs bs') (o : Nat) :
    Like Below (writeN m o bs) (writeN m' o bs') := by
  unfold writeN
  rw [h.length_eq, hb.length_eq]
  split
  · exact ⟨_, rfl, below_append (below_append (List.forall₂_take o h) hb) (List.forall₂_drop _ h)⟩
  · trivial

theorem like_getc {m m' : Mem} (h : Below m m') (o : Nat) : Like (· = ·) (getc m o) (getc m' o) := by
  unfold getc
  induction h generalizing o with
  | nil => trivial
  | @cons a b l l' hab _ ih =>
    cases o with
    | zero =>
      rcases hab with rfl | rfl
      · trivial
      · exact Like.refl _
    | succ o => simpa using ih o

theorem like_bytesEq {a a' : Mem} (h : Below a a') : ∀ {b b' : Mem}, Below b b' →
    Like (· = ·) (bytesEq a b) (bytesEq a' b') := by
  induction h with
  | nil =>
    intro b b' g
    cases g with
    | nil => exact ⟨_, rfl, rfl⟩
    | cons _ _ => trivial
  | @cons x y l l' hxy hl ih =>
    intro b b' g
    cases g with
    | nil =>
      rcases hxy with rfl | rfl
      · trivial
      · cases x <;> trivial
    | @cons u v r r' huv hr =>
      rcases hxy with rfl | rfl
      · trivial
      · rcases huv with rfl | rfl
        · cases x <;> trivial
        · cases x with
          | none => trivial
          | some x =>
            cases u with
            | none => trivial
            | some u =>
              simp only [bytesEq]
              split
              · exact ih hr
              · exact ⟨_, rfl, rfl⟩

theorem like_vtRealloc (E : Env) {m m' : Mem} (h : Below m m') (n : Nat) :
    Like Below (vtRealloc E m n) (vtRealloc E m' n) := by
  unfold vtRealloc
  refine (Like.refl (cassert E (n > 0))).bind fun _ _ _ => ?_
  rw [h.length_eq]
  split
  · rfl
  · split
    · exact ⟨_, rfl, below_append (List.forall₂_take n h) (below_refl _)⟩
    · rfl

theorem like_vtMemset {m m' : Mem} (h : Below m m') (o : Nat) (b : UInt8) (n : Nat) :
    Like Below (vtMemset m o b n) (vtMemset m' o b n) := by
  unfold vtMemset memset
  split
  · exact ⟨_, rfl, h⟩
  · exact like_writeN h (below_refl _) o

theorem like_vtMemmove {m m' : Mem} (h : Below m m') (d s n : Nat) :
    Like Below (vtMemmove m d s n) (vtMemmove m' d s n) := by
  unfold vtMemmove memmove
  split
  · exact ⟨_, rfl, h⟩
  · exact (like_readN h s n).bind fun _ _ g => like_writeN h g d

theorem like_vtMemcpyIn {m m' s s' : Mem} (h : Below m m') (hs : Below s s') (d n : Nat) :
    Like Below (vtMemcpyIn m d s n) (vtMemcpyIn m' d s' n) := by
  unfold vtMemcpyIn memcpyIn
  split
  · exact ⟨_, rfl, h⟩
  · exact (like_readN hs 0 n).bind fun _ _ g => like_writeN h g d

theorem like_memcmp {l l' r r' : Mem} (hl : Below l l') (hr : Below r r') (n : Nat) :
    Like (· = ·) (Core.memcmp l r n) (Core.memcmp l' r' n) := by
  unfold Core.memcmp
  split
  · exact ⟨_, rfl, rfl⟩
  · exact (like_readN hl 0 n).bind fun _ _ g => (like_readN hr 0 n).bind fun _ _ k => like_bytesEq g k

theorem like_block {H H' : Blocks} (h : BelowAll H H') (i : Nat) : Like Below (block H i) (block H' i) := by
  unfold block
  induction h generalizing i with
  | nil => trivial
  | cons hab _ ih =>
    cases i with
    | zero =>
      cases hab with
      | freed => trivial
      | live h => exact ⟨_, rfl, h⟩
    | succ i => simpa using ih i

theorem below_set {H H' : Blocks} (h : BelowAll H H') (i : Nat) {x y : Option Mem} (hx : BelowO x y) :
    BelowAll (H.set i x) (H'.set i y) := by
  induction h generalizing i with
  | nil => exact .nil
  | cons hab hl ih =>
    cases i with
    | zero => exact .cons hx hl
    | succ i => exact .cons hab (ih i)

theorem below_snoc {H H' : Blocks} (h : BelowAll H H') {x y : Option Mem} (hx : BelowO x y) :
    BelowAll (H ++ [x]) (H' ++ [y]) := by
  induction h with
  | nil => exact .cons hx .nil
  | cons hab _ ih => exact .cons hab ih

theorem like_alloc (E : Env) (n : Nat) : Like Below (vtMalloc E n) (vtCalloc E n) := by
  unfold vtMalloc vtCalloc
  refine (Like.refl (cassert E (n > 0))).bind fun _ _ _ => ?_
  split
  · exact ⟨_, rfl, below_replicate n⟩
  · rfl

theorem like_exec {α : Type} (E : Env) {alloc : Nat → Nat → Out Mem} (ha : ∀ i n, Like Below (vtMalloc E n) (alloc i n)) (c : Code α) :
    ∀ {H H' : Blocks}, BelowAll H H' →
    Like (fun r r' => r.1 = r'.1 ∧ BelowAll r.2 r'.2) (exec E (fun _ => vtMalloc E) c H) (exec E alloc c H') := by
  induction c with
  | done a => exact fun h => ⟨_, rfl, rfl, h⟩
  | make n k ih =>
    intro H H' h
    simp only [exec]
    rw [h.length_eq]
    refine (ha _ n).bind fun m m' hm => ?_
    exact ih _ (below_snoc h (.live hm))
  | grow i n k ih =>
    intro H H' h
    simp only [exec]
    exact (like_block h i).bind fun m m' hm => (like_vtRealloc E hm n).bind fun _ _ g => ih (below_set h i (.live g))
  | free i k ih =>
    intro H H' h
    simp only [exec]
    exact (like_block h i).bind fun m m' hm => ih (below_set h i .freed)
  | get i o k ih =>
    intro H H' h
    simp only [exec]
    refine (like_block h i).bind fun m m' hm => (like_getc hm o).bind fun a b e => ?_
    subst e
    exact ih a h
  | put i o b k ih =>
    intro H H' h
    simp only [exec]
    exact (like_block h i).bind fun m m' hm => (like_writeN hm (below_refl [some b]) o).bind fun _ _ g =>
      ih (below_set h i (.live g))
  | fill i o b n k ih =>
    intro H H' h
    simp only [exec]
    exact (like_block h i).bind fun m m' hm => (like_vtMemset hm o b n).bind fun _ _ g => ih (below_set h i (.live g))
  | move i d s n k ih =>
    intro H H' h
    simp only [exec]
    exact (like_block h i).bind fun m m' hm => (like_vtMemmove hm d s n).bind fun _ _ g => ih (below_set h i (.live g))
  | copy i d j n k ih =>
    intro H H' h
    simp only [exec]
    refine (like_block h i).bind fun m m' hm => (like_block h j).bind fun s s' hs => ?_
    split
    · trivial
    · exact (like_vtMemcpyIn hm hs d n).bind fun _ _ g => ih (below_set h i (.live g))
  | same i j n k ih =>
    intro H H' h
    simp only [exec]
    refine (like_block h i).bind fun l l' hl => (like_block h j).bind fun r r' hr =>
      (like_memcmp hl hr n).bind fun a b e => ?_
    subst e
    exact ih a h

end Malloc

open Malloc

theorem outcome {α : Type} (E : Env) (c : Code α) {alloc : Nat → Nat → Out Mem}
    (ha : ∀ i n, Like Below (vtMalloc E n) (alloc i n)) :
    (∀ w, exec E (fun _ => vtMalloc E) c [] = .exit w → exec E alloc c [] = .exit w) ∧
    (∀ a H, exec E (fun _ => vtMalloc E) c [] = .ok (a, H) → ∃ H', exec E alloc c [] = .ok (a, H') ∧ H'.length = H.length ∧
      ∀ (i : Nat) (m : Mem), H[i]? = some (some m) → ∃ m' : Mem, H'[i]? = some (some m') ∧ m'.length = m.length ∧
        ∀ (o : Nat) (b : UInt8), m[o]? = some (some b) → m'[o]? = some (some b)) := by
  have h := like_exec E ha c (H := []) (H' := []) .nil
  refine ⟨fun w e => by rw [e] at h; exact h, fun a H e => ?_⟩
  rw [e] at h
  obtain ⟨⟨a', H'⟩, e', rfl, hb⟩ := h
  refine ⟨H', e', hb.length_eq.symm, fun i m hm => ?_⟩
  have hblk := like_block hb i
  simp only [block, hm] at hblk
  obtain ⟨m', hm', hbl⟩ := hblk
  refine ⟨m', ?_, hbl.length_eq.symm, fun o b ho => ?_⟩
  · split at hm' <;> simp_all
  · have hg := like_getc hbl o
    simp only [getc, ho] at hg
    obtain ⟨b', hb', rfl⟩ := hg
    split at hb' <;> simp_all

/-- **C144** A program that is right with `vt_malloc` does the same with `vt_calloc`: it ends in the same way, returns the same, and every byte that is known at the
end is the same. -/
theorem C144_calloc_instead {α : Type} (E : Env) (c : Code α) :
    (∀ w, exec E (fun _ => vtMalloc E) c [] = .exit w → exec E (fun _ => vtCalloc E) c [] = .exit w) ∧
    (∀ a H, exec E (fun _ => vtMalloc E) c [] = .ok (a, H) → ∃ H', exec E (fun _ => vtCalloc E) c [] = .ok (a, H') ∧ H'.length = H.length ∧
      ∀ (i : Nat) (m : Mem), H[i]? = some (some m) → ∃ m' : Mem, H'[i]? = some (some m') ∧ m'.length = m.length ∧
        ∀ (o : Nat) (b : UInt8), m[o]? = some (some b) → m'[o]? = some (some b)) :=
  outcome E c fun _ => like_alloc E

theorem like_mallocWith (E : Env) (fill : Nat → Nat → UInt8) (i n : Nat) : Like Below (vtMalloc E n) (vtMallocWith E fill i n) := by
  have h : ∀ l : List Nat, Below (List.replicate l.length none) (l.map fun o => some (fill i o)) := by
    intro l
    induction l with
    | nil => exact .nil
    | cons a l ih => exact .cons (.inl rfl) ih
  unfold vtMalloc vtMallocWith
  refine (Like.refl (cassert E (n > 0))).bind fun _ _ _ => ?_
  split
  · exact ⟨_, rfl, by simpa using h (List.range n)⟩
  · rfl

/-- **C144** The outcome of a program that is right with `vt_malloc` does not depend on what the new blocks happen to contain. -/
theorem C144_any_contents {α : Type} (E : Env) (c : Code α) (fill : Nat → Nat → UInt8) :
    (∀ w, exec E (fun _ => vtMalloc E) c [] = .exit w → exec E (vtMallocWith E fill) c [] = .exit w) ∧
    (∀ a H, exec E (fun _ => vtMalloc E) c [] = .ok (a, H) → ∃ H', exec E (vtMallocWith E fill) c [] = .ok (a, H') ∧
      H'.length = H.length ∧
      ∀ (i : Nat) (m : Mem), H[i]? = some (some m) → ∃ m' : Mem, H'[i]? = some (some m') ∧ m'.length = m.length ∧
        ∀ (o : Nat) (b : UInt8), m[o]? = some (some b) → m'[o]? = some (some b)) :=
  outcome E c (like_mallocWith E fill)

/-- The other way round this is false: whatever block a program asks for, reading a byte of it before writing is undefined after `vt_malloc` and gives 0 after
`vt_calloc`. -/
theorem C144_read_first {E : Env} {n o : Nat} (hn : E.allocOk n = true) (ho : o < n) :
    exec E (fun _ => vtMalloc E) (.make n fun i => .get i o .done) [] = .ub ∧
    ∃ H, exec E (fun _ => vtCalloc E) (.make n fun i => .get i o .done) [] = .ok (0, H) := by
  have hp : n > 0 := by omega
  constructor
  · simp [exec, vtMalloc, cassert, hp, hn, block, getc, ho]
  · simp [exec, vtCalloc, cassert, hp, hn, block, getc, ho]

/-- **C144** `vt_malloc` never returns NULL: it gives a block of the size asked for or ends the program, exactly when `vt_calloc` does. -/
theorem C144_block (E : Env) (n : Nat) :
    (∀ m, vtMalloc E n = .ok m → m.length = n ∧ ∀ o, getc m o = .ub) ∧
    (∀ w, vtMalloc E n = .exit w ↔ vtCalloc E n = .exit w) ∧ vtMalloc E n ≠ .ub ∧ vtMalloc E n ≠ .fuel := by
  unfold vtMalloc vtCalloc cassert
  by_cases h1 : E.debug = true <;> by_cases h2 : n > 0 <;> by_cases h3 : E.allocOk n = true <;>
    simp [h1, h2, h3, getc] <;> (try intro o; split <;> simp_all [List.getElem?_replicate])

/-- **C144** Filling the new block with zeros makes up for the difference. -/
theorem C144_filled (E : Env) (n : Nat) : (do let m ← vtMalloc E n; vtMemset m 0 0 n) = vtCalloc E n := by
  unfold vtMalloc vtCalloc cassert vtMemset memset writeN
  by_cases h1 : E.debug = true <;> by_cases h2 : n > 0 <;> by_cases h3 : E.allocOk n = true <;>
    simp [h1, h2, h3]

/-- **C144** A block that has been freed stays freed: no later call of the program makes it usable again, and new blocks get other numbers. -/
theorem C144_stays_freed {α : Type} (E : Env) (alloc : Nat → Nat → Out Mem) (c : Code α) : ∀ (H : Blocks) (i : Nat), H[i]? = some none →
    ∀ a H', exec E alloc c H = .ok (a, H') → H'[i]? = some none := by
  have hlive : ∀ {H : Blocks} {i j : Nat} {m x : Mem}, H[i]? = some none → block H j = .ok m →
      (H.set j (some x))[i]? = some none := by
    intro H i j m x hi hj
    have hne : j ≠ i := by
      rintro rfl
      simp [block, hi] at hj
    rw [List.getElem?_set_ne hne]
    exact hi
  induction c with
  | done a =>
    intro H i hi a H' h
    simp only [exec, Out.ok.injEq, Prod.mk.injEq] at h
    exact h.2 ▸ hi
  | make n k ih =>
    intro H i hi a H' h
    simp only [exec] at h
    obtain ⟨m, _, h⟩ := Out.bind_eq_ok.mp h
    refine ih _ _ _ ?_ _ _ h
    have hlt : i < H.length := (List.getElem?_eq_some_iff.mp hi).1
    rw [List.getElem?_append_left hlt]
    exact hi
  | grow j n k ih =>
    intro H i hi a H' h
    simp only [exec] at h
    obtain ⟨m, hm, h⟩ := Out.bind_eq_ok.mp h
    obtain ⟨m', _, h⟩ := Out.bind_eq_ok.mp h
    exact ih _ _ (hlive hi hm) _ _ h
  | free j k ih =>
    intro H i hi a H' h
    simp only [exec] at h
    obtain ⟨m, hm, h⟩ := Out.bind_eq_ok.mp h
    refine ih _ _ ?_ _ _ h
    have hne : j ≠ i := by
      rintro rfl
      simp [block, hi] at hm
    rw [List.getElem?_set_ne hne]
    exact hi
  | get j o k ih =>
    intro H i hi a H' h
    simp only [exec] at h
    obtain ⟨m, _, h⟩ := Out.bind_eq_ok.mp h
    obtain ⟨b, _, h⟩ := Out.bind_eq_ok.mp h
    exact ih _ _ _ hi _ _ h
  | put j o b k ih =>
    intro H i hi a H' h
    simp only [exec] at h
    obtain ⟨m, hm, h⟩ := Out.bind_eq_ok.mp h
    obtain ⟨m', _, h⟩ := Out.bind_eq_ok.mp h
    exact ih _ _ (hlive hi hm) _ _ h
  | fill j o b n k ih =>
    intro H i hi a H' h
    simp only [exec] at h
    obtain ⟨m, hm, h⟩ := Out.bind_eq_ok.mp h
    obtain ⟨m', _, h⟩ := Out.bind_eq_ok.mp h
    exact ih _ _ (hlive hi hm) _ _ h
  | move j d s n k ih =>
    intro H i hi a H' h
    simp only [exec] at h
    obtain ⟨m, hm, h⟩ := Out.bind_eq_ok.mp h
    obtain ⟨m', _, h⟩ := Out.bind_eq_ok.mp h
    exact ih _ _ (hlive hi hm) _ _ h
  | copy j d l n k ih =>
    intro H i hi a H' h
    simp only [exec] at h
    obtain ⟨m, hm, h⟩ := Out.bind_eq_ok.mp h
    obtain ⟨s, _, h⟩ := Out.bind_eq_ok.mp h
    obtain ⟨m', _, h⟩ := Out.bind_eq_ok.mp h
    exact ih _ _ (hlive hi hm) _ _ h
  | same j l n k ih =>
    intro H i hi a H' h
    simp only [exec] at h
    obtain ⟨m, _, h⟩ := Out.bind_eq_ok.mp h
    obtain ⟨s, _, h⟩ := Out.bind_eq_ok.mp h
    obtain ⟨b, _, h⟩ := Out.bind_eq_ok.mp h
    exact ih _ _ _ hi _ _ h

/-- **C144** Every use of a block after `vt_free` is undefined, and so is freeing it twice. -/
theorem C144_freed {α : Type} (E : Env) (alloc : Nat → Nat → Out Mem) (i o n : Nat) (b : UInt8) (k : Code α) (f : UInt8 → Code α) (H : Blocks) :
    exec E alloc (.free i (.get i o f)) H = .ub ∧ exec E alloc (.free i (.put i o b k)) H = .ub ∧
    exec E alloc (.free i (.grow i n k)) H = .ub ∧ exec E alloc (.free i (.free i k)) H = .ub := by
  have h : ∀ H : Blocks, block (H.set i none) i = .ub := by
    intro H
    unfold block
    by_cases hi : i < H.length
    · simp [hi]
    · simp [List.getElem?_eq_none (l := H.set i none) (i := i) (by simp; omega)]
  unfold block at h
  refine ⟨?_, ?_, ?_, ?_⟩ <;>
  · simp only [exec, block]
    rw [h]
    split <;> rfl

/-- A program that copies a text through a block of its own. -/
example : (exec exE (fun _ => vtMalloc exE) (.make 4 fun i => .fill i 0 65 3 (.put i 3 0 (.make 4 fun j => .copy j 0 i 4
      (.same i j 4 fun b => .get j 2 fun x => .free i (.done (b, x)))))) []) =
    .ok ((true, 65), [none, some [some 65, some 65, some 65, some 0]]) := by decide +kernel

/-- The first bytes of two new blocks differ, so a program that compares them before writing has no fixed outcome, while one that fills them first has. -/
example :
    (exec exE (vtMallocWith exE fun i o => UInt8.ofNat (7 * i + o)) (.make 2 fun i => .make 2 fun j => .same i j 2 .done) []) =
      .ok (false, [some [some 0, some 1], some [some 7, some 8]]) ∧
    (exec exE (vtMallocWith exE fun _ o => UInt8.ofNat o) (.make 2 fun i => .make 2 fun j => .same i j 2 .done) []) =
      .ok (true, [some [some 0, some 1], some [some 0, some 1]]) ∧
    (exec exE (fun _ => vtMalloc exE) (.make 2 fun i => .make 2 fun j => .same i j 2 .done) []) = .ub ∧
    (exec exE (vtMallocWith exE fun i o => UInt8.ofNat (7 * i + o))
      (.make 2 fun i => .make 2 fun j => .fill i 0 9 2 (.fill j 0 9 2 (.same i j 2 .done))) []) =
      .ok (true, [some [some 9, some 9], some [some 9, some 9]]) := by
  refine ⟨?_, ?_, ?_, ?_⟩ <;> decide +kernel

end Vita
