import Verif.Model.Printf
import Verif.Model.Log
import Verif.Props.Conv
import Verif.Props.MalPrint
/-!
# The formatted output of the library about itself (C108)
-/

namespace Vita
open Out Spec Fmt

/-! ### C108 -/

/-- The calls with a wrong format: `%d` or `%i` for a `size_t`, or no argument at all for `%s`. -/
def wrongFormat : List (String × Nat) :=
  [("allocator/mallocator.c", 77), ("allocator/mallocator.c", 108), ("allocator/mallocator.c", 128), ("time/datetime.c", 156), ("time/datetime.c", 167), ("util/log.c", 50)]

/-- The value of an argument is one of its type; sizes that were found by a call are not negative. -/
def ArgFits : Arg → Prop
  | .str _ => True
  | .int v => -2 ^ 31 ≤ v ∧ v < 2 ^ 31
  | .size n => n < 2 ^ 64
  | .i64 v => 0 ≤ v ∧ v < 2 ^ 63

/-- A text tells an argument: it contains the text or the decimal numeral.  Nothing is required of an `int`, which may be a field width. -/
def Tells (t : List UInt8) : Arg → Prop
  | .str s => s <:+: t
  | .int _ => True
  | .size n => numeral n <:+: t
  | .i64 v => numeral v.toNat <:+: t

/-- The types which a format takes, all of them. -/
def fits : List Char → List Ty → Bool
  | [], [] => true
  | '%' :: 's' :: f, .str :: as => fits f as
  | '%' :: '5' :: 's' :: f, .str :: as => fits f as
  | '%' :: '*' :: 's' :: f, .int :: .str :: as => fits f as
  | '%' :: 'z' :: 'u' :: f, .size :: as => fits f as
  | '%' :: 'z' :: 'u' :: f, .i64 :: as => fits f as
  | '%' :: '*' :: 'z' :: 'u' :: f, .int :: .size :: as => fits f as
  | '%' :: _, _ => false
  | _ :: f, as => fits f as
  | _, _ => false

theorem numeral_of_size {n : Nat} (h : n < 2 ^ 64) : Conv.printU 20 n = numeral n := printU_eq 19 n (by omega)

theorem tells_append {t u : List UInt8} {a : Arg} (h : Tells u a) : Tells (t ++ u) a := by
  cases a <;> simp only [Tells] at h ⊢ <;> exact h.trans (List.suffix_append t u).isInfix

theorem padded_infix (w : Int) (t : List UInt8) : t <:+: ArgOpt.padded w t := by
  unfold ArgOpt.padded
  split
  · exact (List.prefix_append _ _).isInfix
  · exact (List.suffix_append _ _).isInfix

theorem infix_front {a t u : List UInt8} (h : a <:+: t) : a <:+: t ++ u := h.trans (List.prefix_append t u).isInfix

theorem printf_fits (f : List Char) (tys : List Ty) (h : fits f tys = true) : ∀ as : List Arg, as.map Arg.ty = tys → (∀ a ∈ as, ArgFits a) →
    ∃ t, printf f as = .ok t ∧ ∀ a ∈ as, Tells t a := by
  fun_induction fits f tys with
  | case1 => intro as ha _; rw [List.map_eq_nil_iff] at ha; subst ha; exact ⟨[], rfl, by simp⟩
  | case2 f tys ih =>
    rintro (_ | ⟨a, as⟩) ha hf <;> simp only [List.map_nil, List.map_cons, List.cons.injEq, reduceCtorEq] at ha
    obtain ⟨t, h1, h2⟩ := ih h as ha.2 fun x hx => hf x (by simp [hx])
    cases a <;> simp only [Arg.ty, reduceCtorEq, false_and] at ha
    rename_i s
    refine ⟨s ++ t, by simp [printf, h1], ?_⟩
    rintro x (_ | ⟨_, hx⟩)
    · exact infix_front (List.infix_refl _)
    · exact tells_append (h2 x hx)
  | case3 f tys ih =>
    rintro (_ | ⟨a, as⟩) ha hf <;> simp only [List.map_nil, List.map_cons, List.cons.injEq, reduceCtorEq] at ha
    obtain ⟨t, h1, h2⟩ := ih h as ha.2 fun x hx => hf x (by simp [hx])
    cases a <;> simp only [Arg.ty, reduceCtorEq, false_and] at ha
    rename_i s
    refine ⟨ArgOpt.padded 5 s ++ t, by simp [printf, h1], ?_⟩
    rintro x (_ | ⟨_, hx⟩)
    · exact infix_front (padded_infix _ _)
    · exact tells_append (h2 x hx)
  | case4 f tys ih =>
    rintro (_ | ⟨a, _ | ⟨b, as⟩⟩) ha hf <;> simp only [List.map_nil, List.map_cons, List.cons.injEq, reduceCtorEq, and_false] at ha
    obtain ⟨t, h1, h2⟩ := ih h as ha.2.2 fun x hx => hf x (by simp [hx])
    cases a <;> simp only [Arg.ty, reduceCtorEq, false_and, true_and] at ha
    cases b <;> simp only [Arg.ty, reduceCtorEq, false_and, true_and] at ha
    rename_i w s
    refine ⟨ArgOpt.padded w s ++ t, by simp [printf, h1], ?_⟩
    rintro x (_ | ⟨_, _ | ⟨_, hx⟩⟩)
    · trivial
    · exact infix_front (padded_infix _ _)
    · exact tells_append (h2 x hx)
  | case5 f tys ih =>
    rintro (_ | ⟨a, as⟩) ha hf <;> simp only [List.map_nil, List.map_cons, List.cons.injEq, reduceCtorEq] at ha
    obtain ⟨t, h1, h2⟩ := ih h as ha.2 fun x hx => hf x (by simp [hx])
    cases a <;> simp only [Arg.ty, reduceCtorEq, false_and] at ha
    rename_i n
    have hn : n < 2 ^ 64 := hf (.size n) (by simp)
    refine ⟨numeral n ++ t, by simp [printf, h1, numeral_of_size hn], ?_⟩
    rintro x (_ | ⟨_, hx⟩)
    · exact infix_front (List.infix_refl _)
    · exact tells_append (h2 x hx)
  | case6 f tys ih =>
    rintro (_ | ⟨a, as⟩) ha hf <;> simp only [List.map_nil, List.map_cons, List.cons.injEq, reduceCtorEq] at ha
    obtain ⟨t, h1, h2⟩ := ih h as ha.2 fun x hx => hf x (by simp [hx])
    cases a <;> simp only [Arg.ty, reduceCtorEq, false_and] at ha
    rename_i n
    have hn : 0 ≤ n ∧ n < 2 ^ 63 := hf (.i64 n) (by simp)
    have hn2 : ¬ n < 0 := by omega
    refine ⟨numeral n.toNat ++ t, by simp [printf, h1, numeral_of_size (n := n.toNat) (by omega), hn2], ?_⟩
    rintro x (_ | ⟨_, hx⟩)
    · exact infix_front (List.infix_refl _)
    · exact tells_append (h2 x hx)
  | case7 f tys ih =>
    rintro (_ | ⟨a, _ | ⟨b, as⟩⟩) ha hf <;> simp only [List.map_nil, List.map_cons, List.cons.injEq, reduceCtorEq, and_false] at ha
    obtain ⟨t, h1, h2⟩ := ih h as ha.2.2 fun x hx => hf x (by simp [hx])
    cases a <;> simp only [Arg.ty, reduceCtorEq, false_and, true_and] at ha
    cases b <;> simp only [Arg.ty, reduceCtorEq, false_and, true_and] at ha
    rename_i w n
    have hn : n < 2 ^ 64 := hf (.size n) (by simp)
    refine ⟨ArgOpt.padded w (numeral n) ++ t, by simp [printf, h1, numeral_of_size hn], ?_⟩
    rintro x (_ | ⟨_, _ | ⟨_, hx⟩⟩)
    · trivial
    · exact infix_front (padded_infix _ _)
    · exact tells_append (h2 x hx)
  | case8 => simp at h
  | case9 c f tys _ _ _ _ _ _ hc ih =>
    intro as ha hf
    obtain ⟨t, h1, h2⟩ := ih h as ha hf
    refine ⟨UInt8.ofNat c.toNat :: t, ?_, fun x hx => tells_append (t := [UInt8.ofNat c.toNat]) (h2 x hx)⟩
    rw [printf.eq_def]
    split <;> simp_all
  | case10 => simp at h

/-- All calls other than those listed have arguments of the types their format asks for. -/
theorem sites_fit : ∀ s ∈ sites, (s.file, s.line) ∈ wrongFormat ∨ fits (ascii s.fmt) s.args = true := by
  intro s hs
  rcases List.mem_append.mp hs with hs | hs
  · right
    obtain ⟨l, hl, hs⟩ := List.mem_flatten.mp hs
    obtain ⟨x, _, rfl⟩ := List.mem_map.mp hl
    obtain ⟨n, _, rfl⟩ := List.mem_map.mp hs
    show fits (ascii "%s\n") [.str] = true
    decide +kernel
  · have : (otherSites.all fun s => wrongFormat.contains (s.file, s.line) || fits (ascii s.fmt) s.args) = true := by decide +kernel
    have := List.all_eq_true.mp this s hs
    rw [Bool.or_eq_true, List.contains_iff_mem] at this
    exact this

/-- **C108** (partial: six calls are missing, see `C108_wrong_format`.)  Wherever the library formats a message of its own, whatever the values, the formatting is defined and the
message tells every text and every number passed to it. -/
theorem C108_messages_partial {s : Site} (hs : s ∈ sites) (hw : (s.file, s.line) ∉ wrongFormat) {as : List Arg} (ha : as.map Arg.ty = s.args)
    (hf : ∀ a ∈ as, ArgFits a) : ∃ t, printf (ascii s.fmt) as = .ok t ∧ ∀ a ∈ as, Tells t a :=
  printf_fits _ _ ((sites_fit s hs).resolve_left hw) as ha hf

/-- Formats and types of arguments that lead to a wrong conversion. -/
def misfits : List Char → List Ty → Bool
  | '%' :: 's' :: f, .str :: as => misfits f as
  | '%' :: 'z' :: 'u' :: f, .size :: as => misfits f as
  | '%' :: 'd' :: _, .size :: _ => true
  | '%' :: 'i' :: _, .size :: _ => true
  | '%' :: 's' :: _, [] => true
  | '%' :: _, _ => false
  | _ :: f, as => misfits f as
  | _, _ => false

theorem printf_misfits (f : List Char) (tys : List Ty) (h : misfits f tys = true) : ∀ as : List Arg, as.map Arg.ty = tys → printf f as = .ub := by
  fun_induction misfits f tys with
  | case1 f tys ih =>
    rintro (_ | ⟨a, as⟩) ha <;> simp only [List.map_nil, List.map_cons, List.cons.injEq, reduceCtorEq] at ha
    have h1 := ih h as ha.2
    cases a <;> simp only [Arg.ty, reduceCtorEq, false_and] at ha
    simp [printf, h1]
  | case2 f tys ih =>
    rintro (_ | ⟨a, as⟩) ha <;> simp only [List.map_nil, List.map_cons, List.cons.injEq, reduceCtorEq] at ha
    have h1 := ih h as ha.2
    cases a <;> simp only [Arg.ty, reduceCtorEq, false_and] at ha
    simp [printf, h1]
  | case3 f tys =>
    rintro (_ | ⟨a, as⟩) ha <;> simp only [List.map_nil, List.map_cons, List.cons.injEq, reduceCtorEq] at ha
    cases a <;> simp only [Arg.ty, reduceCtorEq, false_and] at ha
    simp [printf]
  | case4 f tys =>
    rintro (_ | ⟨a, as⟩) ha <;> simp only [List.map_nil, List.map_cons, List.cons.injEq, reduceCtorEq] at ha
    cases a <;> simp only [Arg.ty, reduceCtorEq, false_and] at ha
    simp [printf]
  | case5 f =>
    intro as ha
    rw [List.map_eq_nil_iff] at ha
    subst ha
    simp [printf]
  | case6 => simp at h
  | case7 c f tys _ _ _ _ _ hc ih =>
    intro as ha
    have h1 := ih h as ha
    rw [printf.eq_def]
    split <;> simp_all
  | case8 => simp at h

/-- **C108** (counterexample) In these six places the behaviour is undefined whatever the values are. -/
theorem C108_wrong_format {s : Site} (hs : s ∈ sites) (hw : (s.file, s.line) ∈ wrongFormat) {as : List Arg} (ha : as.map Arg.ty = s.args) :
    printf (ascii s.fmt) as = .ub := by
  refine printf_misfits _ _ ?_ as ha
  rcases List.mem_append.mp hs with hs | hs
  · obtain ⟨l, hl, hs⟩ := List.mem_flatten.mp hs
    obtain ⟨x, hx, rfl⟩ := List.mem_map.mp hl
    obtain ⟨n, hn, rfl⟩ := List.mem_map.mp hs
    have : (plainLines.all fun x => x.2.all fun n => !wrongFormat.contains (x.1, n)) = true := by decide +kernel
    have := List.all_eq_true.mp (List.all_eq_true.mp this x hx) n hn
    rw [Bool.not_eq_true', ← Bool.not_eq_true, List.contains_iff_mem] at this
    exact absurd hw this
  · have : (otherSites.all fun s => !wrongFormat.contains (s.file, s.line) || misfits (ascii s.fmt) s.args) = true := by decide +kernel
    have := List.all_eq_true.mp this s hs
    rw [Bool.or_eq_true, Bool.not_eq_true', ← Bool.not_eq_true, List.contains_iff_mem] at this
    exact this.resolve_left (fun h => h hw)

/-- **C108** There are such calls: each of the six places is one. -/
theorem C108_wrong_format_places : ∀ x ∈ wrongFormat, ∃ s ∈ sites, (s.file, s.line) = x := by
  have : (wrongFormat.all fun x => otherSites.any fun s => (s.file, s.line) == x) = true := by decide +kernel
  intro x hx
  obtain ⟨s, hs, h⟩ := List.any_eq_true.mp (List.all_eq_true.mp this x hx)
  exact ⟨s, List.mem_append_right _ hs, by simpa using h⟩

/-- **C108** The header of a log message is what its format prints (`Log.text` describes it otherwise). -/
theorem C108_log_header (now level file expr : List UInt8) {line : Nat} (hl : line < 2 ^ 64) :
    printf (ascii "%s %5s %s:%zu: ") [.str now, .str level, .str file, .size line] =
      .ok (now ++ [32] ++ Log.pad5 level ++ [32] ++ file ++ [58] ++ numeral line ++ [58, 32]) ∧
    printf (ascii "%s %5s [%s] %s:%zu: ") [.str now, .str level, .str expr, .str file, .size line] =
      .ok (now ++ [32] ++ Log.pad5 level ++ [32, 91] ++ expr ++ [93, 32] ++ file ++ [58] ++ numeral line ++ [58, 32]) := by
  have e1 : ascii "%s %5s %s:%zu: " = ['%', 's', ' ', '%', '5', 's', ' ', '%', 's', ':', '%', 'z', 'u', ':', ' '] := by decide +kernel
  have e2 : ascii "%s %5s [%s] %s:%zu: " = ['%', 's', ' ', '%', '5', 's', ' ', '[', '%', 's', ']', ' ', '%', 's', ':', '%', 'z', 'u', ':', ' '] := by decide +kernel
  rw [e1, e2]
  simp [printf, numeral_of_size hl, ArgOpt.padded, Log.pad5]

/-- **C108** A line of the help text is what its format prints (`ArgOpt.helpLines` describes it otherwise). -/
theorem C108_help_line (os ol : Int) (s l d : List UInt8) : printf (ascii "%*s %*s %s\n") [.int os, .str s, .int ol, .str l, .str d] =
    .ok (ArgOpt.padded os s ++ [32] ++ ArgOpt.padded ol l ++ [32] ++ d ++ [10]) := by
  have e1 : ascii "%*s %*s %s\n" = ['%', '*', 's', ' ', '%', '*', 's', ' ', '%', 's', '\n'] := by decide +kernel
  rw [e1]
  simp [printf]

theorem printf_lit (f : List Char) (as : List Arg) : ∀ l : List Char, '%' ∉ l → printf (l ++ f) as = (do
    let r ← printf f as
    .ok (l.map (fun c => UInt8.ofNat c.toNat) ++ r))
  | [], _ => by cases h : printf f as <;> simp [h]
  | c :: l, h => by
    have hc : c ≠ '%' := fun e => h (by simp [e])
    have ih := printf_lit f as l fun e => h (by simp [e])
    rw [List.cons_append, printf.eq_def]
    split <;> simp_all

theorem printf_stat (f : List Char) (as : List Arg) (n : Nat) : printf ('%' :: '*' :: 'z' :: 'u' :: f) (.int 10 :: .size n :: as) = (do
    let r ← printf f as
    .ok (Mal.padZu 10 n ++ r)) := by
  rw [printf.eq_def]
  simp [ArgOpt.padded, Mal.padZu]

theorem printf_nil0 : printf [] [] = .ok [] := by simp [printf]

theorem stats_e : ascii statsSite.fmt = ascii "|-------------------------|\n|    MALLOCATOR STATS     |\n|-------------------------|\n| N   ALLOCS | " ++ ('%' :: '*' :: 'z' :: 'u' ::
    (ascii " |\n| N REALLOCS | " ++ ('%' :: '*' :: 'z' :: 'u' :: (ascii " |\n| N    FREES | " ++ ('%' :: '*' :: 'z' :: 'u' ::
    (ascii " |\n|-------------------------|\n| B T.ALLOCD | " ++ ('%' :: '*' :: 'z' :: 'u' :: (ascii " |\n| B C.ALLOCD | " ++ ('%' :: '*' :: 'z' :: 'u' ::
    (ascii " |\n| B    FREED | " ++ ('%' :: '*' :: 'z' :: 'u' :: (ascii (" |\n|-------------------------|\n| (N) - COUNT             |\n| (B) - BYTES             |\n" ++
      "| (T) - TOTAL             |\n| (C) - CURRENT           |\n|-------------------------|\n") ++ [])))))))))))) := by decide +kernel

theorem stats_e0 : (ascii "|-------------------------|\n|    MALLOCATOR STATS     |\n|-------------------------|\n| N   ALLOCS | ").map (fun c => UInt8.ofNat c.toNat) =
    Mal.lit "|-------------------------|\n" ++ Mal.lit "|    MALLOCATOR STATS     |\n" ++ Mal.lit "|-------------------------|\n" ++ Mal.lit "| N   ALLOCS | " := by decide +kernel

theorem stats_e1 : (ascii " |\n| N REALLOCS | ").map (fun c => UInt8.ofNat c.toNat) = Mal.lit " |\n" ++ Mal.lit "| N REALLOCS | " := by decide +kernel

theorem stats_e2 : (ascii " |\n| N    FREES | ").map (fun c => UInt8.ofNat c.toNat) = Mal.lit " |\n" ++ Mal.lit "| N    FREES | " := by decide +kernel

theorem stats_e3 : (ascii " |\n|-------------------------|\n| B T.ALLOCD | ").map (fun c => UInt8.ofNat c.toNat) =
    Mal.lit " |\n" ++ Mal.lit "|-------------------------|\n" ++ Mal.lit "| B T.ALLOCD | " := by decide +kernel

theorem stats_e4 : (ascii " |\n| B C.ALLOCD | ").map (fun c => UInt8.ofNat c.toNat) = Mal.lit " |\n" ++ Mal.lit "| B C.ALLOCD | " := by decide +kernel

theorem stats_e5 : (ascii " |\n| B    FREED | ").map (fun c => UInt8.ofNat c.toNat) = Mal.lit " |\n" ++ Mal.lit "| B    FREED | " := by decide +kernel

theorem stats_e6 : (ascii (" |\n|-------------------------|\n| (N) - COUNT             |\n| (B) - BYTES             |\n" ++
      "| (T) - TOTAL             |\n| (C) - CURRENT           |\n|-------------------------|\n")).map (fun c => UInt8.ofNat c.toNat) =
    Mal.lit " |\n" ++ Mal.lit "|-------------------------|\n" ++ Mal.lit "| (N) - COUNT             |\n" ++ Mal.lit "| (B) - BYTES             |\n" ++
      Mal.lit "| (T) - TOTAL             |\n" ++ Mal.lit "| (C) - CURRENT           |\n" ++ Mal.lit "|-------------------------|\n" := by decide +kernel

theorem stats_mem : statsSite ∈ otherSites :=
  List.mem_cons_of_mem _ (List.mem_cons_of_mem _ (List.mem_cons_of_mem _ List.mem_cons_self))

/-- **C108** The table of the allocator is what its format prints (`Mal.printStats` describes it otherwise). -/
theorem C108_table (s : Mal.Stats) : ∃ k ∈ sites, k.file = "allocator/mallocator.c" ∧ k.line = 160 ∧
    printf (ascii k.fmt) [.int 10, .size s.allocs, .int 10, .size s.reallocs, .int 10, .size s.frees, .int 10, .size (wadd s.bytesAllocated s.bytesFreed),
      .int 10, .size s.bytesAllocated, .int 10, .size s.bytesFreed] = .ok (Mal.printStats s) := by
  refine ⟨statsSite, List.mem_append_right _ stats_mem, rfl, rfl, ?_⟩
  rw [stats_e]
  rw [printf_lit _ _ _ (by decide +kernel), printf_stat, printf_lit _ _ _ (by decide +kernel), printf_stat, printf_lit _ _ _ (by decide +kernel), printf_stat,
    printf_lit _ _ _ (by decide +kernel), printf_stat, printf_lit _ _ _ (by decide +kernel), printf_stat, printf_lit _ _ _ (by decide +kernel), printf_stat,
    printf_lit _ _ _ (by decide +kernel)]
  rw [stats_e0, stats_e1, stats_e2, stats_e3, stats_e4, stats_e5, stats_e6]
  rw [printf_nil0]
  simp only [bind_ok]
  unfold Mal.printStats
  generalize Mal.lit = L
  simp only [List.append_assoc, List.append_nil]

example : printf (ascii "%s: Failed to open <%s>!\n") [.str [69], .str [120]] = .ok (Mal.lit "E: Failed to open <x>!\n") := by decide +kernel
example : ArgFits (.size 5) ∧ ArgFits (.i64 5) ∧ ArgFits (.int (-5)) := by simp [ArgFits]
example : (⟨"system/fileio.c", 40, "%s: Failed to read file data! Inconsistent read (%zu) != file size (%zu) bytes\n", [.str, .size, .i64]⟩ : Site) ∈ otherSites := by
  simp [otherSites]

end Vita
