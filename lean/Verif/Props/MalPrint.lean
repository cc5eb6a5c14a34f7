import Verif.Model.MalPrint
import Verif.Props.Mallocator
import Verif.Props.Conv
/-!
# Property C92: the printed statistics of the tracking allocator
-/

namespace Vita
open Out Spec Mal

seal wadd wsub wmul

/-- The line shows the number: the label, the number right-aligned in ten columns; a longer number makes the line longer. -/
def IsStatsRow (label : String) (n : Nat) (line : Text) : Prop :=
  ∃ k, line = lit "| " ++ lit label ++ lit " | " ++ List.replicate k 32 ++ numeral n ++ lit " |" ∧ (line.length = 27 ∨ (27 < line.length ∧ k = 0))

/-- Histories as in C38, with the number of bytes ever handed out: the sizes of all new blocks, and what blocks grew by. -/
inductive HandedOut (E : Env) (A : Allocator) : T → Heap → Ledger → Nat → Prop
  | create {H m H'} (hd : H.addrs.Nodup) (h : Mal.create E A H = .ok (m, H')) : HandedOut E A m H' ⟨[], 0, 0, 0, 0, H.blocks⟩ 0
  | alloc {m H L g n m' H' p} (h : HandedOut E A m H L g) (hn : 0 < n) (e : Mal.alloc E A H m n = .ok (m', H', p)) :
      HandedOut E A m' H' { L with live := (p, n) :: L.live, allocs := L.allocs + 1 } (g + n)
  | realloc {m H L g q n m' H' p} (h : HandedOut E A m H L g) (hn : 0 < n) (hq : q ∈ L.live.map (·.1))
      (e : Mal.realloc E A H m q n = .ok (m', H', p)) :
      HandedOut E A m' H' { L with live := (p, n) :: L.live.filter (·.1 ≠ q), reallocs := L.reallocs + 1,
                                   released := L.released + (L.size q - n) } (g + (n - L.size q))
  | free {m H L g q m' H'} (h : HandedOut E A m H L g) (hq : q ∈ L.live.map (·.1)) (e : Mal.free E H m q = .ok (m', H')) :
      HandedOut E A m' H' { L with live := L.live.filter (·.1 ≠ q), frees := L.frees + 1, released := L.released + L.size q } g
  | otherAlloc {m H L g n H' p} (h : HandedOut E A m H L g) (e : hCalloc E A H n = .ok (H', p)) :
      HandedOut E A m H' { L with outside := (p, n) :: L.outside } g
  | otherFree {m H L g q H'} (h : HandedOut E A m H L g) (hq : q ∈ L.outside.map (·.1)) (hq0 : q ≠ 0) (e : hFree H q = .ok H') :
      HandedOut E A m H' { L with outside := L.outside.filter (·.1 ≠ q) } g

theorem HandedOut.hist {E : Env} {A : Allocator} {m : T} {H : Heap} {L : Ledger} {g : Nat} (h : HandedOut E A m H L g) : Hist E A m H L := by
  induction h with
  | create hd h => exact .create hd h
  | alloc _ hn e ih => exact .alloc ih hn e
  | realloc _ hn hq e ih => exact .realloc ih hn hq e
  | free _ hq e ih => exact .free ih hq e
  | otherAlloc _ e ih => exact .otherAlloc ih e
  | otherFree _ hq hq0 e ih => exact .otherFree ih hq hq0 e

theorem total_without {l : List (Nat × Nat)} {q : Nat} (hd : (l.map (·.1)).Nodup) (hq : q ∈ l.map (·.1)) :
    total l = ((l.find? (·.1 = q)).map (·.2)).getD 0 + total (l.filter (·.1 ≠ q)) := by
  obtain ⟨a, s, b, rfl, hf, ha, -⟩ := split_at hd hq
  rw [hf, find_split ha]
  simp [total]
  omega

theorem HandedOut.total {E : Env} {A : Allocator} {m : T} {H : Heap} {L : Ledger} {g : Nat} (h : HandedOut E A m H L g) :
    g = total L.live + L.released := by
  induction h with
  | create hd h => rfl
  | alloc h hn e ih => rw [total_cons]; dsimp only; omega
  | @realloc m H L g q n m' H' p h hn hq e ih =>
    have := total_without (hist_inv h.hist).live_nodup hq
    dsimp only
    rw [total_cons]
    dsimp only
    unfold Ledger.size
    omega
  | free h hq e ih =>
    have := total_without (hist_inv h.hist).live_nodup hq
    dsimp only
    unfold Ledger.size
    omega
  | otherAlloc _ e ih => exact ih
  | otherFree _ hq hq0 e ih => exact ih

theorem padZu_eq {n : Nat} (h : n < 2 ^ 64) : padZu 10 n = List.replicate (10 - (numeral n).length) 32 ++ numeral n := by
  unfold padZu
  rw [printU_eq 19 n (by omega)]

theorem statsRow_padZu {label : String} (hl : (lit label).length = 10) {n : Nat} (h : n < 2 ^ 64) :
    IsStatsRow label n (lit "| " ++ lit label ++ lit " | " ++ padZu 10 n ++ lit " |") := by
  refine ⟨10 - (numeral n).length, by rw [padZu_eq h]; simp only [List.append_assoc], ?_⟩
  have a : (lit "| ").length = 2 := by decide +kernel
  have b : (lit " | ").length = 3 := by decide +kernel
  have c : (lit " |").length = 2 := by decide +kernel
  simp only [padZu_eq h, List.length_append, a, b, c, hl, List.length_replicate]
  omega

/-- The sixteen lines. -/
def statsLines (s : Stats) : List Text :=
  [lit "|-------------------------|", lit "|    MALLOCATOR STATS     |", lit "|-------------------------|",
   lit "| " ++ lit "N   ALLOCS" ++ lit " | " ++ padZu 10 s.allocs ++ lit " |",
   lit "| " ++ lit "N REALLOCS" ++ lit " | " ++ padZu 10 s.reallocs ++ lit " |",
   lit "| " ++ lit "N    FREES" ++ lit " | " ++ padZu 10 s.frees ++ lit " |",
   lit "|-------------------------|",
   lit "| " ++ lit "B T.ALLOCD" ++ lit " | " ++ padZu 10 (wadd s.bytesAllocated s.bytesFreed) ++ lit " |",
   lit "| " ++ lit "B C.ALLOCD" ++ lit " | " ++ padZu 10 s.bytesAllocated ++ lit " |",
   lit "| " ++ lit "B    FREED" ++ lit " | " ++ padZu 10 s.bytesFreed ++ lit " |",
   lit "|-------------------------|", lit "| (N) - COUNT             |", lit "| (B) - BYTES             |", lit "| (T) - TOTAL             |",
   lit "| (C) - CURRENT           |", lit "|-------------------------|"]

theorem printStats_lines (s : Stats) : printStats s = ((statsLines s).map (· ++ [10])).flatten := by
  unfold printStats statsLines
  have e1 : lit "|-------------------------|\n" = lit "|-------------------------|" ++ [10] := by decide +kernel
  have e2 : lit "|    MALLOCATOR STATS     |\n" = lit "|    MALLOCATOR STATS     |" ++ [10] := by decide +kernel
  have e3 : lit " |\n" = lit " |" ++ [10] := by decide +kernel
  have e4 : lit "| N   ALLOCS | " = lit "| " ++ lit "N   ALLOCS" ++ lit " | " := by decide +kernel
  have e5 : lit "| N REALLOCS | " = lit "| " ++ lit "N REALLOCS" ++ lit " | " := by decide +kernel
  have e6 : lit "| N    FREES | " = lit "| " ++ lit "N    FREES" ++ lit " | " := by decide +kernel
  have e7 : lit "| B T.ALLOCD | " = lit "| " ++ lit "B T.ALLOCD" ++ lit " | " := by decide +kernel
  have e8 : lit "| B C.ALLOCD | " = lit "| " ++ lit "B C.ALLOCD" ++ lit " | " := by decide +kernel
  have e9 : lit "| B    FREED | " = lit "| " ++ lit "B    FREED" ++ lit " | " := by decide +kernel
  have e10 : lit "| (N) - COUNT             |\n" = lit "| (N) - COUNT             |" ++ [10] := by decide +kernel
  have e11 : lit "| (B) - BYTES             |\n" = lit "| (B) - BYTES             |" ++ [10] := by decide +kernel
  have e12 : lit "| (T) - TOTAL             |\n" = lit "| (T) - TOTAL             |" ++ [10] := by decide +kernel
  have e13 : lit "| (C) - CURRENT           |\n" = lit "| (C) - CURRENT           |" ++ [10] := by decide +kernel
  rw [e1, e2, e3, e4, e5, e6, e7, e8, e9, e10, e11, e12, e13]
  simp only [List.map_cons, List.map_nil, List.flatten_cons, List.flatten_nil, List.append_assoc, List.append_nil]

theorem wadd_mod (a b : Nat) : wadd (a % 2 ^ 64) (b % 2 ^ 64) = (a + b) % 2 ^ 64 := by unfold wadd; omega

/-- **C92** After any history the printed table has sixteen lines; six of them show the numbers of allocations, reallocations and releases, the bytes ever handed out,
the bytes of the live blocks and the bytes given back (modulo `2 ^ 64`, the range of the counters). -/
theorem C92_table {E : Env} {A : Allocator} {m : T} {H : Heap} {L : Ledger} {g : Nat} (h : HandedOut E A m H L g) :
    ∃ lines : List Text, printStats m.stats = (lines.map (· ++ [10])).flatten ∧ lines.length = 16 ∧
      (∃ l, lines[3]? = some l ∧ IsStatsRow "N   ALLOCS" (L.allocs % 2 ^ 64) l) ∧
      (∃ l, lines[4]? = some l ∧ IsStatsRow "N REALLOCS" (L.reallocs % 2 ^ 64) l) ∧
      (∃ l, lines[5]? = some l ∧ IsStatsRow "N    FREES" (L.frees % 2 ^ 64) l) ∧
      (∃ l, lines[7]? = some l ∧ IsStatsRow "B T.ALLOCD" (g % 2 ^ 64) l) ∧
      (∃ l, lines[8]? = some l ∧ IsStatsRow "B C.ALLOCD" ((L.live.map (·.2)).sum % 2 ^ 64) l) ∧
      (∃ l, lines[9]? = some l ∧ IsStatsRow "B    FREED" (L.released % 2 ^ 64) l) := by
  have hi := hist_inv h.hist
  refine ⟨statsLines m.stats, printStats_lines _, rfl, ⟨_, rfl, ?_⟩, ⟨_, rfl, ?_⟩, ⟨_, rfl, ?_⟩, ⟨_, rfl, ?_⟩, ⟨_, rfl, ?_⟩, ⟨_, rfl, ?_⟩⟩
  · rw [hi.allocs]; exact statsRow_padZu (by decide +kernel) (Nat.mod_lt _ (by decide))
  · rw [hi.reallocs]; exact statsRow_padZu (by decide +kernel) (Nat.mod_lt _ (by decide))
  · rw [hi.frees]; exact statsRow_padZu (by decide +kernel) (Nat.mod_lt _ (by decide))
  · rw [hi.bytes, hi.freed, wadd_mod, ← h.total]; exact statsRow_padZu (by decide +kernel) (Nat.mod_lt _ (by decide))
  · rw [hi.bytes]; exact statsRow_padZu (by decide +kernel) (Nat.mod_lt _ (by decide))
  · rw [hi.freed]; exact statsRow_padZu (by decide +kernel) (Nat.mod_lt _ (by decide))

/-- Every history of C38 has a number of bytes handed out. -/
theorem C92_every_history {E : Env} {A : Allocator} {m : T} {H : Heap} {L : Ledger} (h : Hist E A m H L) : ∃ g, HandedOut E A m H L g := by
  induction h with
  | create hd h => exact ⟨_, .create hd h⟩
  | alloc _ hn e ih => obtain ⟨g, ih⟩ := ih; exact ⟨_, .alloc ih hn e⟩
  | realloc _ hn hq e ih => obtain ⟨g, ih⟩ := ih; exact ⟨_, .realloc ih hn hq e⟩
  | free _ hq e ih => obtain ⟨g, ih⟩ := ih; exact ⟨_, .free ih hq e⟩
  | otherAlloc _ e ih => obtain ⟨g, ih⟩ := ih; exact ⟨_, .otherAlloc ih e⟩
  | otherFree _ hq hq0 e ih => obtain ⟨g, ih⟩ := ih; exact ⟨_, .otherFree ih hq hq0 e⟩

theorem pad_inj {i j : Nat} {a b x y : Text} (ha : ∀ c ∈ a, IsDigit c) (hb : ∀ c ∈ b, IsDigit c) (ha0 : a ≠ []) (hb0 : b ≠ [])
    (h : List.replicate i 32 ++ a ++ 32 :: x = List.replicate j 32 ++ b ++ 32 :: y) : a = b ∧ x = y := by
  have key : ∀ (i : Nat) (a x : Text), (∀ c ∈ a, IsDigit c) → a ≠ [] →
      (List.replicate i 32 ++ a ++ 32 :: x).dropWhile (· == (32 : UInt8)) = a ++ 32 :: x := by
    intro i a x ha h0
    rw [List.append_assoc, List.dropWhile_append_of_pos (by intro c hc; rw [List.eq_of_mem_replicate hc]; rfl)]
    obtain ⟨d, t, rfl⟩ := List.exists_cons_of_ne_nil h0
    rw [List.cons_append, List.dropWhile_cons_of_neg]
    intro hd
    have : d = 32 := by simpa using hd
    have := ha d (by simp)
    subst d
    revert this; decide
  have e := congrArg (List.dropWhile (· == (32 : UInt8))) h
  rw [key i a x ha ha0, key j b y hb hb0] at e
  have tk : ∀ (a x : Text), (∀ c ∈ a, IsDigit c) → (a ++ 32 :: x).takeWhile isdigit = a := by
    intro a x ha
    rw [List.takeWhile_append_of_pos (fun c hc => (isdigit_iff c).2 (ha c hc)), List.takeWhile_cons_of_neg (by decide), List.append_nil]
  have e2 := congrArg (List.takeWhile isdigit) e
  rw [tk a x ha, tk b y hb] at e2
  subst e2
  exact ⟨rfl, (List.cons.inj (List.append_cancel_left e)).2⟩

theorem numeral_inj {a b : Nat} (h : numeral a = numeral b) : a = b := by
  rw [← digitsValue_numeral a, ← digitsValue_numeral b, h]

theorem numeral_ne_nil (n : Nat) : numeral n ≠ [] := by
  rcases Nat.lt_or_ge n 10 with h | h
  · rw [numeral_small h]; simp
  · rw [numeral_big h]; simp

/-- **C92** Nothing is lost in the table: different statistics have different tables. -/
theorem C92_faithful {s s' : Stats} (h : ∀ t ∈ [s, s'], t.allocs < 2 ^ 64 ∧ t.reallocs < 2 ^ 64 ∧ t.frees < 2 ^ 64 ∧ t.bytesAllocated < 2 ^ 64 ∧ t.bytesFreed < 2 ^ 64)
    (he : printStats s = printStats s') : s = s' := by
  obtain ⟨h1, h2, h3, h4, h5⟩ := h s (by simp)
  obtain ⟨g1, g2, g3, g4, g5⟩ := h s' (by simp)
  have hw : ∀ a b, wadd a b < 2 ^ 64 := fun a b => by unfold wadd; omega
  have e3 : lit " |\n" = [32, 124, 10] := by decide +kernel
  unfold printStats at he
  rw [e3, padZu_eq h1, padZu_eq h2, padZu_eq h3, padZu_eq h4, padZu_eq h5, padZu_eq g1, padZu_eq g2, padZu_eq g3, padZu_eq g4, padZu_eq g5,
    padZu_eq (hw _ _), padZu_eq (hw _ _)] at he
  generalize lit "| N   ALLOCS | " = l1, lit "| N REALLOCS | " = l2, lit "| N    FREES | " = l3, lit "| B T.ALLOCD | " = l4, lit "| B C.ALLOCD | " = l5,
    lit "| B    FREED | " = l6, lit "|-------------------------|\n" = l7, lit "|    MALLOCATOR STATS     |\n" = l8, lit "| (N) - COUNT             |\n" = l9,
    lit "| (B) - BYTES             |\n" = l10, lit "| (T) - TOTAL             |\n" = l11, lit "| (C) - CURRENT           |\n" = l12 at he
  simp only [List.append_assoc, List.append_cancel_left_eq, List.cons_append, List.nil_append] at he
  have step : ∀ {i j a b : Nat} {x y : Text},
      List.replicate i 32 ++ (numeral a ++ 32 :: x) = List.replicate j 32 ++ (numeral b ++ 32 :: y) → a = b ∧ x = y := by
    intro i j a b x y h
    rw [← List.append_assoc, ← List.append_assoc] at h
    obtain ⟨h1, h2⟩ := pad_inj numeral_digit numeral_digit (numeral_ne_nil a) (numeral_ne_nil b) h
    exact ⟨numeral_inj h1, h2⟩
  obtain ⟨a1, he⟩ := step he
  simp only [List.cons.injEq, true_and, List.append_cancel_left_eq] at he
  obtain ⟨a2, he⟩ := step he
  simp only [List.cons.injEq, true_and, List.append_cancel_left_eq] at he
  obtain ⟨a3, he⟩ := step he
  simp only [List.cons.injEq, true_and, List.append_cancel_left_eq] at he
  obtain ⟨-, he⟩ := step he
  simp only [List.cons.injEq, true_and, List.append_cancel_left_eq] at he
  obtain ⟨a4, he⟩ := step he
  simp only [List.cons.injEq, true_and, List.append_cancel_left_eq] at he
  obtain ⟨a5, -⟩ := step he
  cases s; cases s'
  dsimp only at a1 a2 a3 a4 a5
  subst a1 a2 a3 a4 a5
  rfl

/-- Create, allocate 10 and 7 bytes, release the first block, shrink the second to 4 bytes: 17 bytes handed out, 4 live, 13 given back. -/
example : ∃ m H, HandedOut malE bumpA m H ⟨[(5, 4)], 2, 1, 1, 13, []⟩ 17 := by
  have h0 : HandedOut malE bumpA ⟨1, 2, [], 16, {}⟩ ⟨[(2, 256), (1, 88)], 2⟩ ⟨[], 0, 0, 0, 0, []⟩ 0 :=
    HandedOut.create (H := ⟨[], 0⟩) (by simp [Heap.addrs]) (by decide +kernel)
  have h1 := HandedOut.alloc (n := 10) (m' := ⟨1, 2, [(3, 10)], 16, ⟨1, 0, 0, 10, 0⟩⟩) (H' := ⟨[(3, 10), (2, 256), (1, 88)], 3⟩) (p := 3) h0
    (by decide) (by decide +kernel)
  have h2 := HandedOut.alloc (n := 7) (m' := ⟨1, 2, [(3, 10), (4, 7)], 16, ⟨2, 0, 0, 17, 0⟩⟩)
    (H' := ⟨[(4, 7), (3, 10), (2, 256), (1, 88)], 4⟩) (p := 4) h1 (by decide) (by decide +kernel)
  have h3 := HandedOut.free (q := 3) (m' := ⟨1, 2, [(4, 7)], 16, ⟨2, 0, 1, 7, 10⟩⟩)
    (H' := ⟨[(4, 7), (2, 256), (1, 88)], 5⟩) h2 (by decide) (by decide +kernel)
  have h4 := HandedOut.realloc (q := 4) (n := 4) (m' := ⟨1, 2, [(5, 4)], 16, ⟨2, 1, 1, 4, 13⟩⟩)
    (H' := ⟨[(5, 4), (2, 256), (1, 88)], 6⟩) (p := 5) h3 (by decide) (by decide) (by decide +kernel)
  exact ⟨_, _, h4⟩
/-- The table of that state. -/
example : printStats ⟨2, 1, 1, 4, 13⟩ = lit ("|-------------------------|\n|    MALLOCATOR STATS     |\n|-------------------------|\n| N   ALLOCS |          2 |\n" ++
    "| N REALLOCS |          1 |\n| N    FREES |          1 |\n|-------------------------|\n| B T.ALLOCD |         17 |\n| B C.ALLOCD |          4 |\n" ++
    "| B    FREED |         13 |\n|-------------------------|\n| (N) - COUNT             |\n| (B) - BYTES             |\n| (T) - TOTAL             |\n" ++
    "| (C) - CURRENT           |\n|-------------------------|\n") := by decide +kernel

end Vita
