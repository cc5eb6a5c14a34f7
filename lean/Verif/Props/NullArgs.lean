import Verif.Model.NullArgs
/-!
# C143: what NULL does as an argument of any function

The functions are numbered as in `Model/NullArgs.lean`; a pair `(f, p)` is pointer parameter `p` of
function `f`.  The three lists below are the statement of what the library accepts; the theorems say
that they are exactly right, for all functions and for all ways of passing NULLs to several
parameters at a time.
-/

namespace Vita
namespace NullArgs

/-- The parameters that may be NULL: allocators, containers to put the result in, texts of help
pages and log files, the pointers of `vt_free` and `vt_realloc`, the ends of `vt_strtof` and its
like, the option and the value of an assignment. -/
def optional : List (Nat × Nat) := [
  (9, 0), -- `vt_array_new`, `alloctr`
  (24, 0), -- `vt_plist_create`, `alloctr`
  (26, 1), -- `vt_plist_dup`, `alloctr`
  (53, 1), -- `vt_str_create`, `alloctr`
  (54, 0), -- `vt_str_create_len`, `alloctr`
  (55, 0), -- `vt_str_create_capacity`, `alloctr`
  (58, 1), -- `vt_str_take_ownership`, `alloctr`
  (95, 0), -- `vt_str_split`, `ps`
  (96, 0), -- `vt_str_split_between`, `s`
  (97, 0), -- `vt_str_join`, `s`
  (98, 0), -- `vt_str_join_n`, `s`
  (99, 0), -- `vt_str_pop_get_first`, `sr`
  (100, 0), -- `vt_str_pop_get_last`, `sr`
  (118, 0), -- `vt_vec_create`, `alloctr`
  (120, 1), -- `vt_vec_dup`, `alloctr`
  (142, 1), -- `vt_strtof`, `zend`
  (143, 1), -- `vt_strtod`, `zend`
  (144, 1), -- `vt_strtold`, `zend`
  (147, 0), -- `vt_realloc`, `ptr`
  (148, 0), -- `vt_free`, `ptr`
  (163, 1), -- `vt_file_read`, `alloctr`
  (164, 1), -- `vt_file_readb`, `alloctr`
  (177, 0), -- `vt_path_build`, `s`
  (178, 0), -- `vt_path_build_n`, `s`
  (179, 0), -- `vt_path_get_cwd`, `alloctr`
  (184, 0), -- `vt_path_dir_list`, `p`
  (185, 0), -- `vt_path_dir_list_recurse`, `p`
  (187, 0), -- `vt_path_basename`, `s`
  (194, 1), -- `vt_path_expand_tilda`, `alloctr`
  (195, 0), -- `vt_path_get_this_exe_location`, `alloctr`
  (213, 2), -- `vt_argopt_parse`, `alloctr`
  (214, 0), -- `vt_argopt_print_help`, `header`
  (214, 1), -- `vt_argopt_print_help`, `footer`
  (216, 0), -- `vt_argopt_assign_value`, `opt`
  (216, 1), -- `vt_argopt_assign_value`, `value`
  (216, 2), -- `vt_argopt_assign_value`, `alloctr`
  (219, 0), -- `vt_debug_redirect_output`, `zfilename`
  (220, 0), -- `vt_log_redirect_level_output`, `zfilename`
  (221, 0), -- `vt_log_redirect_all_output`, `zfilename`
  (222, 0), -- `vt_log`, `zfilename`
  (222, 1)] -- `vt_log`, `zexpr`

/-- The parameters that nothing checks, although they are used: the places in allocation functions,
the texts of `vt_strtof` and its like, the data and addresses of sockets, the options of
`vt_argopt_validate`, and the texts of messages. -/
def unchecked : List (Nat × Nat) := [
  (1, 1), -- `vt_mallocator_alloc`, `file`
  (1, 2), -- `vt_mallocator_alloc`, `func`
  (2, 2), -- `vt_mallocator_realloc`, `file`
  (2, 3), -- `vt_mallocator_realloc`, `func`
  (3, 2), -- `vt_mallocator_free`, `file`
  (3, 3), -- `vt_mallocator_free`, `func`
  (142, 0), -- `vt_strtof`, `z`
  (143, 0), -- `vt_strtod`, `z`
  (144, 0), -- `vt_strtold`, `z`
  (145, 0), -- `vt_malloc`, `file`
  (145, 1), -- `vt_malloc`, `func`
  (146, 0), -- `vt_calloc`, `file`
  (146, 1), -- `vt_calloc`, `func`
  (147, 1), -- `vt_realloc`, `file`
  (147, 2), -- `vt_realloc`, `func`
  (156, 0), -- `vt_socket_send`, `data_buf`
  (157, 0), -- `vt_socket_send_to`, `data_buf`
  (158, 0), -- `vt_socket_receive`, `data_buf`
  (159, 0), -- `vt_socket_receive_from`, `address`
  (159, 1), -- `vt_socket_receive_from`, `data_buf`
  (160, 0), -- `vt_socket_poll`, `pfd`
  (161, 0), -- `vt_socket_receive_timed`, `data_buf`
  (162, 0), -- `vt_socket_receive_timed_from`, `address`
  (162, 1), -- `vt_socket_receive_timed_from`, `data_buf`
  (215, 0), -- `vt_argopt_validate`, `optv`
  (217, 0), -- `vt_debug_assert`, `zexpr`
  (217, 1), -- `vt_debug_assert`, `subject`
  (217, 2), -- `vt_debug_assert`, `file`
  (217, 3), -- `vt_debug_assert`, `func`
  (217, 4), -- `vt_debug_assert`, `zfmt`
  (218, 0), -- `vt_debug_printf`, `subject`
  (222, 2), -- `vt_log`, `file`
  (222, 3)] -- `vt_log`, `zfmt`

/-- The parameters that must not be NULL in a debug build, but are only stored or compared. -/
def stored : List (Nat × Nat) := [
  (2, 1), -- `vt_mallocator_realloc`, `ptr`
  (3, 1), -- `vt_mallocator_free`, `ptr`
  (5, 1), -- `vt_mallocator_obj_list_remove`, `ptr`
  (8, 1), -- `vt_mallocator_obj_list_find`, `ptr`
  (34, 1), -- `vt_plist_insert`, `ptr`
  (36, 1), -- `vt_plist_set`, `ptr`
  (38, 1), -- `vt_plist_push_front`, `ptr`
  (39, 1), -- `vt_plist_push_back`, `ptr`
  (43, 1), -- `vt_plist_remove_element`, `ptr`
  (44, 1), -- `vt_plist_can_find`, `ptr`
  (49, 0), -- `vt_span_from`, `ptr`
  (50, 0)] -- `vt_span_from_to`, `ptr`

/-- The number of pointer parameters of function `f`. -/
def arity (f : Nat) : Nat := (table.getD f ⟨0, []⟩).arity

/-- Some argument of the call is NULL for which `P` holds. -/
def SomeNull (f : Nat) (nulls : List Bool) (P : Nat × Nat → Prop) : Prop :=
  ∃ p < arity f, isNull nulls p = true ∧ P (f, p)

instance (f : Nat) (nulls : List Bool) (P : Nat × Nat → Prop) [DecidablePred P] :
    Decidable (SomeNull f nulls P) :=
  inferInstanceAs (Decidable (∃ p < arity f, isNull nulls p = true ∧ P (f, p)))

/-- All ways of choosing NULL or not for `n` pointers. -/
def choices : Nat → List (List Bool)
  | 0 => [[]]
  | n + 1 => (choices n).map (false :: ·) ++ (choices n).map (true :: ·)

theorem mem_choices (l : List Bool) : l ∈ choices l.length := by
  induction l with
  | nil => simp [choices]
  | cons a l ih => cases a <;> simp [choices, ih]

/-- Once the calls are not nested too deep, allowing more makes no difference. -/
theorem steps_mono (debug : Bool) (g h : Nat → List Bool → Res)
    (H : ∀ f l, g f l ≠ .deep → h f l = g f l) (nulls : List Bool) :
    ∀ l : List Step, steps debug g nulls l ≠ .deep → steps debug h nulls l = steps debug g nulls l
  | [], _ => rfl
  | .check k p :: r, hd => by
    simp only [steps] at hd ⊢
    split
    · rfl
    · rename_i hc
      rw [if_neg hc] at hd
      exact steps_mono debug g h H nulls r hd
  | .use p :: r, hd => by
    simp only [steps] at hd ⊢
    split
    · rfl
    · rename_i hc
      rw [if_neg hc] at hd
      exact steps_mono debug g h H nulls r hd
  | .stop p :: r, hd => by
    simp only [steps] at hd ⊢
    split
    · rfl
    · rename_i hc
      rw [if_neg hc] at hd
      exact steps_mono debug g h H nulls r hd
  | .call f args :: r, hd => by
    simp only [steps] at hd ⊢
    have hg : g f (inner nulls args) ≠ .deep := by
      intro e
      rw [e] at hd
      exact hd rfl
    rw [H f _ hg]
    cases e : g f (inner nulls args) with
    | returns =>
      rw [e] at hd
      exact steps_mono debug g h H nulls r hd
    | report => rfl
    | undefined => rfl
    | deep => rfl

theorem run_succ (debug : Bool) : ∀ (n f : Nat) (l : List Bool),
    run debug n f l ≠ .deep → run debug (n + 1) f l = run debug n f l
  | 0, _, _, h => absurd rfl h
  | n + 1, f, l, h => by
    rw [run] at h
    rw [run, run]
    exact steps_mono debug _ _ (fun f l => run_succ debug n f l) l _ h

theorem run_le (debug : Bool) (m f : Nat) (l : List Bool) (h : run debug m f l ≠ .deep) (k : Nat) :
    run debug (m + k) f l = run debug m f l := by
  induction k with
  | zero => rfl
  | succ k ih => rw [← Nat.add_assoc, run_succ debug (m + k) f l (by rw [ih]; exact h), ih]

set_option maxRecDepth 100000 in
set_option synthInstance.maxSize 1000 in
set_option synthInstance.maxHeartbeats 400000 in
theorem table_debug : ∀ f < table.length, ∀ l ∈ choices (arity f),
    (run true 5 f l ≠ .deep) ∧
    (¬ SomeNull f l (· ∈ unchecked) →
      (run true 5 f l = .report ↔ SomeNull f l (· ∉ optional)) ∧
      (run true 5 f l = .returns ↔ ¬ SomeNull f l (· ∉ optional))) := by
  decide +kernel

set_option maxRecDepth 100000 in
set_option synthInstance.maxSize 1000 in
set_option synthInstance.maxHeartbeats 400000 in
theorem table_release : ∀ f < table.length, ∀ l ∈ choices (arity f),
    (run false 5 f l ≠ .deep) ∧
    (¬ SomeNull f l (· ∈ unchecked) → f ≠ 213 → f ≠ 214 →
      (run false 5 f l = .undefined ↔ SomeNull f l (fun q => q ∉ optional ∧ q ∉ stored)) ∧
      run false 5 f l ≠ .report) := by
  decide +kernel

end NullArgs

open NullArgs

/-- C143, debug builds: whatever pointers are NULL, as long as none of them is one of the 33
parameters in `unchecked`, the call does not use a NULL.  If one that may not be NULL is, the
program ends with the report of an assertion; if not, the call goes through. -/
theorem C143_debug (f : Nat) (hf : f < table.length) (nulls : List Bool)
    (hl : nulls.length = arity f) (hu : ¬ SomeNull f nulls (· ∈ unchecked)) (n : Nat)
    (hn : 5 ≤ n) :
    (run true n f nulls = .report ↔ SomeNull f nulls (· ∉ optional)) ∧
    (run true n f nulls = .returns ↔ ¬ SomeNull f nulls (· ∉ optional)) ∧
    run true n f nulls ≠ .undefined := by
  obtain ⟨h1, h2⟩ := table_debug f hf nulls (hl ▸ mem_choices nulls)
  obtain ⟨h3, h4⟩ := h2 hu
  obtain ⟨k, rfl⟩ := Nat.exists_eq_add_of_le hn
  rw [run_le true 5 f nulls h1 k]
  refine ⟨h3, h4, fun h => ?_⟩
  by_cases hs : SomeNull f nulls (· ∉ optional)
  · rw [h3.2 hs] at h; cases h
  · rw [h4.2 hs] at h; cases h

/-- `vt_str_join(NULL, sep, NULL)`: the list is missing, so the program ends with a report; with
only the result missing the call goes through. -/
example : run true 5 97 [true, false, true] = .report ∧ run true 5 97 [true, false, false] = .returns ∧
    ¬ SomeNull 97 [true, false, true] (· ∈ unchecked) := by decide +kernel

set_option maxRecDepth 100000 in
set_option synthInstance.maxSize 1000 in
set_option synthInstance.maxHeartbeats 400000 in
/-- C143, debug builds: the list of unchecked parameters is exactly right.  NULL for one of them, and
for nothing else, is used by the function, and this holds for no other parameter. -/
theorem C143_unchecked : ∀ f < table.length, ∀ p < arity f, ∀ n ≥ 5,
    (run true n f ((List.range (arity f)).map (· == p)) = .undefined ↔ (f, p) ∈ unchecked) := by
  have H : ∀ f < table.length, ∀ p < arity f,
      (run true 5 f ((List.range (arity f)).map (· == p)) = .undefined ↔ (f, p) ∈ unchecked) := by
    decide +kernel
  intro f hf p hp n hn
  obtain ⟨k, rfl⟩ := Nat.exists_eq_add_of_le hn
  have hm := mem_choices ((List.range (arity f)).map (· == p))
  simp only [List.length_map, List.length_range] at hm
  rw [run_le true 5 f _ (table_debug f hf _ hm).1 k]
  exact H f hf p hp

/-- C143, release builds: without the assertions, NULL for a parameter that may not be NULL is used,
unless it is only stored; and no function ends the program over it.  The two exceptions are
`vt_argopt_parse` (213) and `vt_argopt_print_help` (214). -/
theorem C143_release (f : Nat) (hf : f < table.length) (h1 : f ≠ 213) (h2 : f ≠ 214)
    (nulls : List Bool) (hl : nulls.length = arity f) (hu : ¬ SomeNull f nulls (· ∈ unchecked))
    (n : Nat) (hn : 5 ≤ n) :
    (run false n f nulls = .undefined ↔
      SomeNull f nulls (fun q => q ∉ optional ∧ q ∉ stored)) ∧
    run false n f nulls ≠ .report := by
  obtain ⟨h3, h4⟩ := table_release f hf nulls (hl ▸ mem_choices nulls)
  obtain ⟨k, rfl⟩ := Nat.exists_eq_add_of_le hn
  rw [run_le false 5 f nulls h3 k]
  exact h4 hu h1 h2

/-- `vt_str_len(NULL)` in both builds. -/
example : run true 5 60 [true] = .report ∧ run false 5 60 [true] = .undefined := by decide +kernel

/-- C143: the two functions of command line options check their options in release builds, too. -/
theorem C143_options (nulls : List Bool) (hl : nulls.length = 3) (debug : Bool) (n : Nat)
    (hn : 5 ≤ n) :
    (run debug n 213 nulls = .report ↔ isNull nulls 0 = true ∨ isNull nulls 1 = true) ∧
    (run debug n 214 nulls = .report ↔ isNull nulls 2 = true) ∧
    run debug n 213 nulls ≠ .undefined ∧ run debug n 214 nulls ≠ .undefined := by
  have H : ∀ d : Bool, ∀ l ∈ choices 3, run d 5 213 l ≠ .deep ∧ run d 5 214 l ≠ .deep ∧
      (run d 5 213 l = .report ↔ isNull l 0 = true ∨ isNull l 1 = true) ∧
      (run d 5 214 l = .report ↔ isNull l 2 = true) ∧
      run d 5 213 l ≠ .undefined ∧ run d 5 214 l ≠ .undefined := by decide +kernel
  obtain ⟨h1, h2, h3⟩ := H debug nulls (hl ▸ mem_choices nulls)
  obtain ⟨k, rfl⟩ := Nat.exists_eq_add_of_le hn
  rw [run_le debug 5 213 nulls h1 k, run_le debug 5 214 nulls h2 k]
  exact h3

end Vita
