/-!
# Null pointers as arguments

What every function of the library does about NULL for its pointer parameters, read off the source:
232 entries: every function of `/repo/src/vita/*/*.c` that takes a pointer, also those local to a
file.  Functions generated by one macro for the types of numbers share an entry (the last nine).  Not
in the table are functions without pointer parameters.

For each function its pointer parameters are numbered from 0 in the order of the parameter list, and
its body is reduced to the steps at which a NULL makes a difference, in the order of the text:

* `check k p`: an assertion that parameter `p` is not NULL, written with `VT_DEBUG_ASSERT`
  (`inc/vita/util/debug.h` lines 29-37: removed if `NDEBUG` is defined), with `assert` of the
  standard library (removed if `NDEBUG` is defined), or with `VT_ENFORCE` (line 43: never removed);
* `use p`: the first place after that where the function reads or writes through `p` or hands it to
  a function of the C library that does;
* `call f args`: the first place where `p` is handed to another function of the table as it is;
* `stop p`: the function returns at once if `p` is NULL.

Parameters the code compares with NULL before it uses them (`if (s == NULL)`, `s == NULL ? … : s`)
give no step.  Nor do pointers that are only stored or compared, as the elements of `vt_plist_t`.

Simplifications: only the first use or call of each parameter after its check is in the table.  A
use may stand in a branch that is not always taken, so `undefined` below says that nothing in the
function keeps the NULL from being used, not that every call with it uses it.  All pointers that are
not NULL are taken to be valid, and all other conditions a function checks are taken to hold.
-/

namespace Vita
namespace NullArgs

/-- The three kinds of assertions in the library: `VT_DEBUG_ASSERT`, `assert`, `VT_ENFORCE`
(`inc/vita/util/debug.h` lines 29-43 and `assert.h`, included in `inc/vita/core/core.h` line 32). -/
inductive Kind
  | debug
  | standard
  | always
  deriving DecidableEq, Repr

/-- Is an assertion of kind `k` in the program, if the library was compiled for debugging
(`debug`, that is, without `NDEBUG`) or not (`inc/vita/util/debug.h` lines 29-43)? -/
def inBuild (debug : Bool) : Kind → Bool
  | .debug => debug
  | .standard => debug
  | .always => true

/-- A step of a function at which a NULL makes a difference, see above. -/
inductive Step
  | check (k : Kind) (p : Nat)
  | use (p : Nat)
  | call (f : Nat) (args : List (Option Nat))
  | stop (p : Nat)
  deriving DecidableEq, Repr

/-- A function: the number of its pointer parameters and its steps. -/
structure Fn where
  arity : Nat
  steps : List Step
  deriving DecidableEq, Repr

/-- The functions, in the order of the files and within each file of the text.  The comment before
each entry gives its number, name, pointer parameters and place. -/
def table : List Fn := [
  -- 0: vt_mallocator_destroy(alloctr), src/vita/allocator/mallocator.c lines 27-55
  ⟨1, [.check .debug 0, .use 0]⟩,
  -- 1: vt_mallocator_alloc(alloctr, file, func), src/vita/allocator/mallocator.c lines 57-80
  ⟨3, [.check .debug 0, .use 0, .call 146 [some 1, some 2]]⟩,
  -- 2: vt_mallocator_realloc(alloctr, ptr, file, func), src/vita/allocator/mallocator.c lines 82-111
  ⟨4, [.check .debug 0, .use 0, .check .debug 1, .call 5 [some 0, some 1],
    .call 147 [some 1, some 2, some 3]]⟩,
  -- 3: vt_mallocator_free(alloctr, ptr, file, func), src/vita/allocator/mallocator.c lines 113-137
  ⟨4, [.check .debug 0, .use 0, .check .debug 1, .call 5 [some 0, some 1], .use 2, .use 3]⟩,
  -- 4: vt_mallocator_obj_list_add(alloctr), src/vita/allocator/mallocator.c lines 177-190
  ⟨1, [.check .debug 0, .use 0]⟩,
  -- 5: vt_mallocator_obj_list_remove(alloctr, ptr), src/vita/allocator/mallocator.c lines 198-224
  ⟨2, [.check .debug 0, .use 0, .check .debug 1, .call 8 [some 0, some 1]]⟩,
  -- 6: vt_mallocator_obj_list_resize(alloctr), src/vita/allocator/mallocator.c lines 230-239
  ⟨1, [.check .debug 0, .use 0]⟩,
  -- 7: vt_mallocator_obj_list_has_space(alloctr), src/vita/allocator/mallocator.c lines 245-251
  ⟨1, [.check .debug 0, .use 0]⟩,
  -- 8: vt_mallocator_obj_list_find(alloctr, ptr), src/vita/allocator/mallocator.c lines 259-274
  ⟨2, [.check .debug 0, .use 0, .check .debug 1]⟩,
  -- 9: vt_array_new(alloctr), src/vita/container/common.c lines 3-11
  ⟨1, []⟩,
  -- 10: vt_array_free(vbat), src/vita/container/common.c lines 13-26
  ⟨1, [.check .debug 0, .use 0]⟩,
  -- 11: vt_array_head(vbat), src/vita/container/common.c lines 28-34
  ⟨1, [.check .debug 0, .use 0]⟩,
  -- 12: vt_array_len(vbat), src/vita/container/common.c lines 36-42
  ⟨1, [.check .debug 0, .use 0]⟩,
  -- 13: vt_array_capacity(vbat), src/vita/container/common.c lines 44-50
  ⟨1, [.check .debug 0, .use 0]⟩,
  -- 14: vt_array_has_space(vbat), src/vita/container/common.c lines 52-58
  ⟨1, [.check .debug 0, .use 0]⟩,
  -- 15: vt_array_elsize(vbat), src/vita/container/common.c lines 60-66
  ⟨1, [.check .debug 0, .use 0]⟩,
  -- 16: vt_array_has_alloctr(vbat), src/vita/container/common.c lines 68-73
  ⟨1, [.check .debug 0, .use 0]⟩,
  -- 17: vt_array_get(vbat), src/vita/container/common.c lines 75-88
  ⟨1, [.check .debug 0, .use 0]⟩,
  -- 18: vt_array_set(vbat, val), src/vita/container/common.c lines 90-105
  ⟨2, [.check .debug 0, .use 0, .check .debug 1, .use 1]⟩,
  -- 19: vt_array_slide_front(vbat), src/vita/container/common.c lines 107-122
  ⟨1, [.check .debug 0, .use 0]⟩,
  -- 20: vt_array_slide_back(vbat), src/vita/container/common.c lines 124-139
  ⟨1, [.check .debug 0, .use 0]⟩,
  -- 21: vt_array_slide_reset(vbat), src/vita/container/common.c lines 141-147
  ⟨1, [.check .debug 0, .use 0]⟩,
  -- 22: vt_index_1d_to_2d(row, col), src/vita/container/common.c lines 153-160
  ⟨2, [.check .debug 0, .check .debug 1, .use 0, .use 1]⟩,
  -- 23: vt_index_1d_to_3d(row, col, depth), src/vita/container/common.c lines 166-176
  ⟨3, [.check .debug 0, .check .debug 1, .check .debug 2, .use 2, .use 0, .use 1]⟩,
  -- 24: vt_plist_create(alloctr), src/vita/container/plist.c lines 3-18
  ⟨1, []⟩,
  -- 25: vt_plist_destroy(p), src/vita/container/plist.c lines 20-37
  ⟨1, [.check .debug 0, .use 0]⟩,
  -- 26: vt_plist_dup(p, alloctr), src/vita/container/plist.c lines 39-52
  ⟨2, [.check .debug 0, .use 0, .call 24 [some 1]]⟩,
  -- 27: vt_plist_len(p), src/vita/container/plist.c lines 54-56
  ⟨1, [.call 12 [some 0]]⟩,
  -- 28: vt_plist_capacity(p), src/vita/container/plist.c lines 58-60
  ⟨1, [.call 13 [some 0]]⟩,
  -- 29: vt_plist_has_space(p), src/vita/container/plist.c lines 62-64
  ⟨1, [.call 14 [some 0]]⟩,
  -- 30: vt_plist_is_empty(p), src/vita/container/plist.c lines 66-68
  ⟨1, [.call 12 [some 0]]⟩,
  -- 31: vt_plist_reserve(p), src/vita/container/plist.c lines 70-83
  ⟨1, [.check .debug 0, .use 0]⟩,
  -- 32: vt_plist_shrink(p), src/vita/container/plist.c lines 85-103
  ⟨1, [.check .debug 0, .use 0]⟩,
  -- 33: vt_plist_resize(p), src/vita/container/plist.c lines 105-123
  ⟨1, [.check .debug 0, .use 0]⟩,
  -- 34: vt_plist_insert(p, ptr), src/vita/container/plist.c lines 125-151
  ⟨2, [.check .debug 0, .use 0, .check .debug 1]⟩,
  -- 35: vt_plist_clear(p), src/vita/container/plist.c lines 153-160
  ⟨1, [.check .debug 0, .use 0]⟩,
  -- 36: vt_plist_set(p, ptr), src/vita/container/plist.c lines 162-177
  ⟨2, [.check .debug 0, .use 0, .check .debug 1]⟩,
  -- 37: vt_plist_get(p), src/vita/container/plist.c lines 179-192
  ⟨1, [.check .debug 0, .use 0]⟩,
  -- 38: vt_plist_push_front(p, ptr), src/vita/container/plist.c lines 194-203
  ⟨2, [.check .debug 0, .use 0, .check .debug 1, .call 34 [some 0, some 1]]⟩,
  -- 39: vt_plist_push_back(p, ptr), src/vita/container/plist.c lines 205-218
  ⟨2, [.check .debug 0, .use 0, .check .debug 1]⟩,
  -- 40: vt_plist_pop(p), src/vita/container/plist.c lines 220-229
  ⟨1, [.check .debug 0, .use 0]⟩,
  -- 41: vt_plist_pop_get(p), src/vita/container/plist.c lines 231-242
  ⟨1, [.check .debug 0, .use 0]⟩,
  -- 42: vt_plist_remove(p), src/vita/container/plist.c lines 244-266
  ⟨1, [.check .debug 0, .use 0]⟩,
  -- 43: vt_plist_remove_element(p, ptr), src/vita/container/plist.c lines 268-278
  ⟨2, [.check .debug 0, .use 0, .check .debug 1, .call 44 [some 0, some 1]]⟩,
  -- 44: vt_plist_can_find(p, ptr), src/vita/container/plist.c lines 280-294
  ⟨2, [.check .debug 0, .use 0, .check .debug 1]⟩,
  -- 45: vt_plist_slide_front(p), src/vita/container/plist.c lines 296-311
  ⟨1, [.check .debug 0, .use 0]⟩,
  -- 46: vt_plist_slide_back(p), src/vita/container/plist.c lines 313-328
  ⟨1, [.check .debug 0, .use 0]⟩,
  -- 47: vt_plist_slide_reset(p), src/vita/container/plist.c lines 330-336
  ⟨1, [.check .debug 0, .use 0]⟩,
  -- 48: vt_plist_apply(p, func), src/vita/container/plist.c lines 338-349
  ⟨2, [.check .debug 0, .use 0, .check .debug 1, .use 1]⟩,
  -- 49: vt_span_from(ptr), src/vita/container/span.c lines 3-14
  ⟨1, [.check .debug 0]⟩,
  -- 50: vt_span_from_to(ptr), src/vita/container/span.c lines 16-28
  ⟨1, [.check .debug 0]⟩,
  -- 51: vt_span_set(val), src/vita/container/span.c lines 63-75
  ⟨1, [.check .debug 0, .call 18 [none, some 0]]⟩,
  -- 52: vt_str_create_static(z), src/vita/container/str.c lines 6-19
  ⟨1, [.check .debug 0, .use 0]⟩,
  -- 53: vt_str_create(z, alloctr), src/vita/container/str.c lines 21-33
  ⟨2, [.check .debug 0, .use 0, .call 54 [some 1]]⟩,
  -- 54: vt_str_create_len(alloctr), src/vita/container/str.c lines 35-53
  ⟨1, []⟩,
  -- 55: vt_str_create_capacity(alloctr), src/vita/container/str.c lines 55-64
  ⟨1, [.call 54 [some 0]]⟩,
  -- 56: vt_str_destroy(s), src/vita/container/str.c lines 66-87
  ⟨1, [.check .debug 0, .use 0]⟩,
  -- 57: vt_str_dup(s), src/vita/container/str.c lines 89-95
  ⟨1, [.check .debug 0, .use 0]⟩,
  -- 58: vt_str_take_ownership(z, alloctr), src/vita/container/str.c lines 97-115
  ⟨2, [.check .debug 0, .call 9 [some 1], .use 0]⟩,
  -- 59: vt_str_z(s), src/vita/container/str.c lines 117-123
  ⟨1, [.check .debug 0, .use 0]⟩,
  -- 60: vt_str_len(s), src/vita/container/str.c lines 125-127
  ⟨1, [.call 12 [some 0]]⟩,
  -- 61: vt_str_capacity(s), src/vita/container/str.c lines 129-131
  ⟨1, [.call 13 [some 0]]⟩,
  -- 62: vt_str_has_space(s), src/vita/container/str.c lines 133-135
  ⟨1, [.call 14 [some 0]]⟩,
  -- 63: vt_str_is_empty(s), src/vita/container/str.c lines 137-139
  ⟨1, [.call 12 [some 0]]⟩,
  -- 64: vt_str_validate_len(s), src/vita/container/str.c lines 141-154
  ⟨1, [.check .debug 0, .use 0]⟩,
  -- 65: vt_str_shrink(s), src/vita/container/str.c lines 156-177
  ⟨1, [.check .debug 0, .use 0]⟩,
  -- 66: vt_str_clear(s), src/vita/container/str.c lines 179-189
  ⟨1, [.check .debug 0, .use 0]⟩,
  -- 67: vt_str_reserve(s), src/vita/container/str.c lines 191-208
  ⟨1, [.check .debug 0, .use 0]⟩,
  -- 68: vt_str_resize(s), src/vita/container/str.c lines 210-228
  ⟨1, [.check .debug 0, .use 0]⟩,
  -- 69: vt_str_set(s, z), src/vita/container/str.c lines 230-237
  ⟨2, [.check .debug 0, .use 0, .check .debug 1, .call 72 [some 0, some 1]]⟩,
  -- 70: vt_str_set_at(s, z), src/vita/container/str.c lines 239-269
  ⟨2, [.check .debug 0, .use 0, .check .debug 1, .use 1]⟩,
  -- 71: vt_str_set_c(s), src/vita/container/str.c lines 271-287
  ⟨1, [.check .debug 0, .use 0]⟩,
  -- 72: vt_str_set_n(s, z), src/vita/container/str.c lines 289-313
  ⟨2, [.check .debug 0, .use 0, .check .debug 1, .call 149 [none, some 1]]⟩,
  -- 73: vt_str_append(s, z), src/vita/container/str.c lines 315-322
  ⟨2, [.check .debug 0, .use 0, .check .debug 1, .call 75 [some 0, some 1]]⟩,
  -- 74: vt_str_appendf(s, fmt), src/vita/container/str.c lines 324-340
  ⟨2, [.check .debug 0, .use 0, .check .debug 1, .call 117 [some 0, some 1]]⟩,
  -- 75: vt_str_append_n(s, z), src/vita/container/str.c lines 342-362
  ⟨2, [.check .debug 0, .use 0, .check .debug 1, .call 149 [none, some 1]]⟩,
  -- 76: vt_str_insert(s, z), src/vita/container/str.c lines 364-395
  ⟨2, [.check .debug 0, .use 0, .check .debug 1, .use 1]⟩,
  -- 77: vt_str_insertf(s, fmt), src/vita/container/str.c lines 397-447
  ⟨2, [.check .debug 0, .use 0, .check .debug 1, .use 1]⟩,
  -- 78: vt_str_insert_n(s, z), src/vita/container/str.c lines 449-473
  ⟨2, [.check .debug 0, .use 0, .check .debug 1, .call 149 [none, some 1]]⟩,
  -- 79: vt_str_insert_before(s, sub, z), src/vita/container/str.c lines 475-490
  ⟨3, [.check .debug 0, .use 0, .check .debug 1, .check .debug 2, .call 112 [some 0, some 1], .call 76 [some 0, some 2]]⟩,
  -- 80: vt_str_insert_after(s, sub, z), src/vita/container/str.c lines 492-507
  ⟨3, [.check .debug 0, .use 0, .check .debug 1, .check .debug 2, .call 112 [some 0, some 1], .call 76 [some 0, some 2]]⟩,
  -- 81: vt_str_remove(s), src/vita/container/str.c lines 509-535
  ⟨1, [.check .debug 0, .use 0]⟩,
  -- 82: vt_str_remove_first(s, z), src/vita/container/str.c lines 537-564
  ⟨2, [.check .debug 0, .use 0, .check .debug 1, .use 1]⟩,
  -- 83: vt_str_remove_last(s, z), src/vita/container/str.c lines 566-592
  ⟨2, [.check .debug 0, .use 0, .check .debug 1, .use 1]⟩,
  -- 84: vt_str_remove_all(s, z), src/vita/container/str.c lines 594-604
  ⟨2, [.check .debug 0, .use 0, .check .debug 1, .call 82 [some 0, some 1]]⟩,
  -- 85: vt_str_remove_c(s, c), src/vita/container/str.c lines 606-644
  ⟨2, [.check .debug 0, .use 0, .check .debug 1, .use 1]⟩,
  -- 86: vt_str_replace(s, sub, rsub), src/vita/container/str.c lines 646-677
  ⟨3, [.check .debug 0, .use 0, .check .debug 1, .check .debug 2, .use 1, .use 2]⟩,
  -- 87: vt_str_replace_first(s, sub, rsub), src/vita/container/str.c lines 679-705
  ⟨3, [.check .debug 0, .use 0, .check .debug 1, .check .debug 2, .use 1, .use 2]⟩,
  -- 88: vt_str_replace_last(s, sub, rsub), src/vita/container/str.c lines 707-739
  ⟨3, [.check .debug 0, .use 0, .check .debug 1, .check .debug 2, .use 1, .use 2]⟩,
  -- 89: vt_str_replace_c(s, c, r), src/vita/container/str.c lines 741-767
  ⟨3, [.check .debug 0, .use 0, .check .debug 1, .check .debug 2, .use 2, .use 1]⟩,
  -- 90: vt_str_strip(s), src/vita/container/str.c lines 769-801
  ⟨1, [.check .debug 0, .use 0]⟩,
  -- 91: vt_str_strip_punct(s), src/vita/container/str.c lines 803-835
  ⟨1, [.check .debug 0, .use 0]⟩,
  -- 92: vt_str_strip_c(s, c), src/vita/container/str.c lines 837-895
  ⟨2, [.check .debug 0, .use 0, .check .debug 1, .use 1]⟩,
  -- 93: vt_str_find(s, sub), src/vita/container/str.c lines 897-905
  ⟨2, [.check .debug 0, .use 0, .check .debug 1, .use 1]⟩,
  -- 94: vt_str_can_find(s, sub), src/vita/container/str.c lines 907-925
  ⟨2, [.check .debug 0, .use 0, .check .debug 1, .use 1]⟩,
  -- 95: vt_str_split(ps, s, sep), src/vita/container/str.c lines 927-989
  ⟨3, [.check .debug 1, .use 1, .check .debug 2, .call 94 [some 1, some 2]]⟩,
  -- 96: vt_str_split_between(s, z, zl, zr), src/vita/container/str.c lines 991-1027
  ⟨4, [.check .debug 1, .check .debug 2, .check .debug 3, .use 1, .use 2, .use 3]⟩,
  -- 97: vt_str_join(s, sep, p), src/vita/container/str.c lines 1029-1051
  ⟨3, [.check .debug 2, .use 2, .check .debug 1, .call 73 [none, some 1]]⟩,
  -- 98: vt_str_join_n(s, sep), src/vita/container/str.c lines 1053-1082
  ⟨2, [.check .debug 1, .call 73 [none, some 1]]⟩,
  -- 99: vt_str_pop_get_first(sr, s, sep), src/vita/container/str.c lines 1084-1128
  ⟨3, [.check .debug 1, .use 1, .check .debug 2, .use 2]⟩,
  -- 100: vt_str_pop_get_last(sr, s, sep), src/vita/container/str.c lines 1130-1186
  ⟨3, [.check .debug 1, .use 1, .check .debug 2, .use 2]⟩,
  -- 101: vt_str_equals_z(z1, z2), src/vita/container/str.c lines 1188-1199
  ⟨2, [.check .debug 0, .check .debug 1, .use 0, .use 1]⟩,
  -- 102: vt_str_equals_n(z1, z2), src/vita/container/str.c lines 1201-1210
  ⟨2, [.check .debug 0, .check .debug 1, .use 0, .use 1]⟩,
  -- 103: vt_str_equals(s1, s2), src/vita/container/str.c lines 1212-1223
  ⟨2, [.check .debug 0, .check .debug 1, .call 60 [some 0], .call 60 [some 1]]⟩,
  -- 104: vt_str_starts_with(s, sub), src/vita/container/str.c lines 1225-1237
  ⟨2, [.check .debug 0, .use 0, .check .debug 1, .use 1]⟩,
  -- 105: vt_str_ends_with(s, sub), src/vita/container/str.c lines 1239-1252
  ⟨2, [.check .debug 0, .use 0, .check .debug 1, .use 1]⟩,
  -- 106: vt_str_apply(s, func), src/vita/container/str.c lines 1254-1264
  ⟨2, [.check .debug 0, .use 0, .check .debug 1, .use 1]⟩,
  -- 107: vt_str_is_numeric(s), src/vita/container/str.c lines 1266-1281
  ⟨1, [.check .debug 0, .use 0]⟩,
  -- 108: vt_str_is_numeric_z(z), src/vita/container/str.c lines 1283-1296
  ⟨1, [.check .debug 0, .use 0]⟩,
  -- 109: vt_str_to_uppercase(s), src/vita/container/str.c lines 1298-1309
  ⟨1, [.check .debug 0, .use 0]⟩,
  -- 110: vt_str_to_lowercase(s), src/vita/container/str.c lines 1311-1322
  ⟨1, [.check .debug 0, .use 0]⟩,
  -- 111: vt_str_index_of(s), src/vita/container/str.c lines 1324-1335
  ⟨1, [.check .debug 0, .use 0]⟩,
  -- 112: vt_str_index_find(s, sub), src/vita/container/str.c lines 1337-1350
  ⟨2, [.check .debug 0, .use 0, .check .debug 1, .call 93 [some 0, some 1]]⟩,
  -- 113: vt_str_slide_front(s), src/vita/container/str.c lines 1352-1358
  ⟨1, [.check .debug 0, .use 0]⟩,
  -- 114: vt_str_slide_back(s), src/vita/container/str.c lines 1360-1366
  ⟨1, [.check .debug 0, .use 0]⟩,
  -- 115: vt_str_slide_reset(s), src/vita/container/str.c lines 1368-1374
  ⟨1, [.check .debug 0, .use 0]⟩,
  -- 116: vt_str_vfmt_set(s, fmt), src/vita/container/str.c lines 1385-1419
  ⟨2, [.check .debug 0, .use 0, .check .debug 1, .use 1]⟩,
  -- 117: vt_str_vfmt_append(s, fmt), src/vita/container/str.c lines 1428-1462
  ⟨2, [.check .debug 0, .use 0, .check .debug 1, .use 1]⟩,
  -- 118: vt_vec_create(alloctr), src/vita/container/vec.c lines 3-19
  ⟨1, []⟩,
  -- 119: vt_vec_destroy(v), src/vita/container/vec.c lines 21-38
  ⟨1, [.check .debug 0, .use 0]⟩,
  -- 120: vt_vec_dup(v, alloctr), src/vita/container/vec.c lines 40-53
  ⟨2, [.check .debug 0, .use 0, .call 118 [some 1]]⟩,
  -- 121: vt_vec_len(v), src/vita/container/vec.c lines 55-57
  ⟨1, [.call 12 [some 0]]⟩,
  -- 122: vt_vec_capacity(v), src/vita/container/vec.c lines 59-61
  ⟨1, [.call 13 [some 0]]⟩,
  -- 123: vt_vec_has_space(v), src/vita/container/vec.c lines 63-65
  ⟨1, [.call 14 [some 0]]⟩,
  -- 124: vt_vec_is_empty(v), src/vita/container/vec.c lines 67-69
  ⟨1, [.call 12 [some 0]]⟩,
  -- 125: vt_vec_shrink(v), src/vita/container/vec.c lines 71-88
  ⟨1, [.check .debug 0, .use 0]⟩,
  -- 126: vt_vec_clear(v), src/vita/container/vec.c lines 90-97
  ⟨1, [.check .debug 0, .use 0]⟩,
  -- 127: vt_vec_reserve(v), src/vita/container/vec.c lines 99-112
  ⟨1, [.check .debug 0, .use 0]⟩,
  -- 128: vt_vec_resize(v), src/vita/container/vec.c lines 114-132
  ⟨1, [.check .debug 0, .use 0]⟩,
  -- 129: vt_vec_push_front(v, val), src/vita/container/vec.c lines 134-143
  ⟨2, [.check .debug 0, .use 0, .check .debug 1, .call 135 [some 0, some 1]]⟩,
  -- 130: vt_vec_push_back(v, val), src/vita/container/vec.c lines 162-175
  ⟨2, [.check .debug 0, .use 0, .check .debug 1, .use 1]⟩,
  -- 131: vt_vec_pop(v), src/vita/container/vec.c lines 194-203
  ⟨1, [.check .debug 0, .use 0]⟩,
  -- 132: vt_vec_pop_get(v), src/vita/container/vec.c lines 205-216
  ⟨1, [.check .debug 0, .use 0]⟩,
  -- 133: vt_vec_set(v, val), src/vita/container/vec.c lines 236-251
  ⟨2, [.check .debug 0, .use 0, .check .debug 1, .call 18 [some 0, some 1]]⟩,
  -- 134: vt_vec_get(v), src/vita/container/vec.c lines 270-283
  ⟨1, [.check .debug 0, .use 0]⟩,
  -- 135: vt_vec_insert(v, val), src/vita/container/vec.c lines 302-328
  ⟨2, [.check .debug 0, .use 0, .check .debug 1, .use 1]⟩,
  -- 136: vt_vec_remove(v), src/vita/container/vec.c lines 347-369
  ⟨1, [.check .debug 0, .use 0]⟩,
  -- 137: vt_vec_can_find(v, val), src/vita/container/vec.c lines 371-385
  ⟨2, [.check .debug 0, .use 0, .check .debug 1, .use 1]⟩,
  -- 138: vt_vec_slide_front(v), src/vita/container/vec.c lines 404-410
  ⟨1, [.check .debug 0, .use 0]⟩,
  -- 139: vt_vec_slide_back(v), src/vita/container/vec.c lines 412-418
  ⟨1, [.check .debug 0, .use 0]⟩,
  -- 140: vt_vec_slide_reset(v), src/vita/container/vec.c lines 420-426
  ⟨1, [.check .debug 0, .use 0]⟩,
  -- 141: vt_vec_apply(v, func), src/vita/container/vec.c lines 429-439
  ⟨2, [.check .debug 0, .use 0, .check .debug 1, .use 1]⟩,
  -- 142: vt_strtof(z, zend), src/vita/core/conv.c lines 3-3
  ⟨2, [.use 0]⟩,
  -- 143: vt_strtod(z, zend), src/vita/core/conv.c lines 4-4
  ⟨2, [.use 0]⟩,
  -- 144: vt_strtold(z, zend), src/vita/core/conv.c lines 5-5
  ⟨2, [.use 0]⟩,
  -- 145: vt_malloc(file, func), src/vita/core/core.c lines 12-23
  ⟨2, [.use 0, .use 1]⟩,
  -- 146: vt_calloc(file, func), src/vita/core/core.c lines 25-36
  ⟨2, [.use 0, .use 1]⟩,
  -- 147: vt_realloc(ptr, file, func), src/vita/core/core.c lines 38-49
  ⟨3, [.use 1, .use 2]⟩,
  -- 148: vt_free(ptr), src/vita/core/core.c lines 51-57
  ⟨1, [.stop 0, .use 0]⟩,
  -- 149: vt_memmove(dest, src), src/vita/core/core.c lines 59-72
  ⟨2, [.check .standard 1, .check .standard 0, .use 0, .use 1]⟩,
  -- 150: vt_memcopy(dest, src), src/vita/core/core.c lines 74-87
  ⟨2, [.check .standard 1, .check .standard 0, .use 0, .use 1]⟩,
  -- 151: vt_memset(ptr), src/vita/core/core.c lines 89-101
  ⟨1, [.check .standard 0, .use 0]⟩,
  -- 152: vt_memcmp(lhs, rhs), src/vita/core/core.c lines 103-112
  ⟨2, [.check .standard 0, .check .standard 1, .use 0, .use 1]⟩,
  -- 153: vt_gswap(a, b), src/vita/core/core.c lines 116-131
  ⟨2, [.check .standard 0, .check .standard 1, .use 0, .use 1]⟩,
  -- 154: vt_pswap(a, b), src/vita/core/core.c lines 133-141
  ⟨2, [.check .standard 0, .check .standard 1, .use 0, .use 1]⟩,
  -- 155: vt_socket_make_address(address), src/vita/network/sockets.c lines 26-33
  ⟨1, [.check .debug 0, .use 0]⟩,
  -- 156: vt_socket_send(data_buf), src/vita/network/sockets.c lines 127-138
  ⟨1, [.use 0]⟩,
  -- 157: vt_socket_send_to(data_buf), src/vita/network/sockets.c lines 140-157
  ⟨1, [.use 0]⟩,
  -- 158: vt_socket_receive(data_buf), src/vita/network/sockets.c lines 159-170
  ⟨1, [.use 0]⟩,
  -- 159: vt_socket_receive_from(address, data_buf), src/vita/network/sockets.c lines 172-191
  ⟨2, [.use 1, .use 0]⟩,
  -- 160: vt_socket_poll(pfd), src/vita/network/sockets.c lines 193-204
  ⟨1, [.use 0]⟩,
  -- 161: vt_socket_receive_timed(data_buf), src/vita/network/sockets.c lines 206-223
  ⟨1, [.call 158 [some 0]]⟩,
  -- 162: vt_socket_receive_timed_from(address, data_buf), src/vita/network/sockets.c lines 225-242
  ⟨2, [.call 159 [some 0, some 1]]⟩,
  -- 163: vt_file_read(filename, alloctr), src/vita/system/fileio.c lines 3-54
  ⟨2, [.check .debug 0, .use 0, .call 54 [some 1]]⟩,
  -- 164: vt_file_readb(filename, alloctr), src/vita/system/fileio.c lines 56-102
  ⟨2, [.check .debug 0, .use 0, .call 54 [some 1]]⟩,
  -- 165: vt_file_read_to_buffer(filename, buffer), src/vita/system/fileio.c lines 104-148
  ⟨2, [.check .debug 0, .check .debug 1, .use 0, .use 1]⟩,
  -- 166: vt_file_write(filename, buffer), src/vita/system/fileio.c lines 150-154
  ⟨2, [.check .debug 1, .call 176 [some 0, none], .use 1]⟩,
  -- 167: vt_file_writeln(filename, buffer), src/vita/system/fileio.c lines 156-160
  ⟨2, [.check .debug 1, .call 176 [some 0, none], .use 1]⟩,
  -- 168: vt_file_writeb(filename, buffer), src/vita/system/fileio.c lines 162-166
  ⟨2, [.check .debug 1, .call 176 [some 0, none], .use 1]⟩,
  -- 169: vt_file_writebln(filename, buffer), src/vita/system/fileio.c lines 168-172
  ⟨2, [.check .debug 1, .call 176 [some 0, none], .use 1]⟩,
  -- 170: vt_file_append(filename, buffer), src/vita/system/fileio.c lines 174-178
  ⟨2, [.check .debug 1, .call 176 [some 0, none], .use 1]⟩,
  -- 171: vt_file_appendln(filename, buffer), src/vita/system/fileio.c lines 180-184
  ⟨2, [.check .debug 1, .call 176 [some 0, none], .use 1]⟩,
  -- 172: vt_file_appendb(filename, buffer), src/vita/system/fileio.c lines 186-190
  ⟨2, [.check .debug 1, .call 176 [some 0, none], .use 1]⟩,
  -- 173: vt_file_appendbln(filename, buffer), src/vita/system/fileio.c lines 192-196
  ⟨2, [.check .debug 1, .call 176 [some 0, none], .use 1]⟩,
  -- 174: vt_file_writef(filename, fmt), src/vita/system/fileio.c lines 198-220
  ⟨2, [.check .debug 0, .check .debug 1, .use 0, .use 1]⟩,
  -- 175: vt_file_writefln(filename, fmt), src/vita/system/fileio.c lines 222-247
  ⟨2, [.check .debug 0, .check .debug 1, .use 0, .use 1]⟩,
  -- 176: vt_file_writefc(filename, fmt), src/vita/system/fileio.c lines 249-276
  ⟨2, [.check .debug 0, .check .debug 1, .use 0, .use 1]⟩,
  -- 177: vt_path_build(s, p), src/vita/system/path.c lines 3-5
  ⟨2, [.call 97 [some 0, none, some 1]]⟩,
  -- 178: vt_path_build_n(s), src/vita/system/path.c lines 7-25
  ⟨1, []⟩,
  -- 179: vt_path_get_cwd(alloctr), src/vita/system/path.c lines 27-29
  ⟨1, [.call 58 [none, some 0]]⟩,
  -- 180: vt_path_exists(z), src/vita/system/path.c lines 31-37
  ⟨1, [.check .debug 0, .use 0]⟩,
  -- 181: vt_path_is_dir(z), src/vita/system/path.c lines 39-46
  ⟨1, [.check .debug 0, .use 0]⟩,
  -- 182: vt_path_is_file(z), src/vita/system/path.c lines 48-55
  ⟨1, [.check .debug 0, .use 0]⟩,
  -- 183: vt_path_get_file_size(z), src/vita/system/path.c lines 57-87
  ⟨1, [.check .debug 0, .call 180 [some 0]]⟩,
  -- 184: vt_path_dir_list(p, z), src/vita/system/path.c lines 89-137
  ⟨2, [.check .debug 1, .call 180 [some 1]]⟩,
  -- 185: vt_path_dir_list_recurse(p, z), src/vita/system/path.c lines 139-203
  ⟨2, [.check .debug 1, .call 180 [some 1]]⟩,
  -- 186: vt_path_dir_free(p), src/vita/system/path.c lines 205-219
  ⟨1, [.check .debug 0, .call 27 [some 0]]⟩,
  -- 187: vt_path_basename(s, z), src/vita/system/path.c lines 221-259
  ⟨2, [.check .debug 1, .call 52 [some 1]]⟩,
  -- 188: vt_path_mkdir(z), src/vita/system/path.c lines 261-283
  ⟨1, [.check .debug 0, .call 180 [some 0]]⟩,
  -- 189: vt_path_mkdir_parents(z), src/vita/system/path.c lines 285-364
  ⟨1, [.check .debug 0, .call 180 [some 0]]⟩,
  -- 190: vt_path_rmdir(z), src/vita/system/path.c lines 366-383
  ⟨1, [.check .debug 0, .call 180 [some 0]]⟩,
  -- 191: vt_path_rmdir_recurse(z), src/vita/system/path.c lines 385-435
  ⟨1, [.check .debug 0, .call 180 [some 0]]⟩,
  -- 192: vt_path_remove(z), src/vita/system/path.c lines 437-448
  ⟨1, [.check .debug 0, .call 180 [some 0]]⟩,
  -- 193: vt_path_rename(z1, z2), src/vita/system/path.c lines 450-466
  ⟨2, [.check .debug 0, .check .debug 1, .call 180 [some 0], .use 1]⟩,
  -- 194: vt_path_expand_tilda(z, alloctr), src/vita/system/path.c lines 468-498
  ⟨2, [.check .debug 0, .call 53 [some 0, some 1]]⟩,
  -- 195: vt_path_get_this_exe_location(alloctr), src/vita/system/path.c lines 500-527
  ⟨1, [.call 55 [some 0]]⟩,
  -- 196: vt_path_pop(z), src/vita/system/path.c lines 529-556
  ⟨1, [.check .debug 0, .call 52 [some 0]]⟩,
  -- 197: vt_path_validate(z), src/vita/system/path.c lines 558-580
  ⟨1, [.check .debug 0, .use 0]⟩,
  -- 198: vt_datetime_get_now_as_text(timebuf), src/vita/time/datetime.c lines 15-24
  ⟨1, [.check .debug 0, .use 0]⟩,
  -- 199: vt_datetime_get_now_as_text_pretty(timebuf), src/vita/time/datetime.c lines 26-36
  ⟨1, [.check .debug 0, .call 203 [some 0]]⟩,
  -- 200: vt_datetime_to_text(timebuf), src/vita/time/datetime.c lines 69-74
  ⟨1, [.check .debug 0, .call 210 [some 0, none]]⟩,
  -- 201: vt_datetime_to_text_iso(timebuf), src/vita/time/datetime.c lines 76-81
  ⟨1, [.check .debug 0, .call 210 [some 0, none]]⟩,
  -- 202: vt_datetime_to_text_iso_ext(timebuf), src/vita/time/datetime.c lines 83-88
  ⟨1, [.check .debug 0, .call 210 [some 0, none]]⟩,
  -- 203: vt_datetime_to_text_pretty(timebuf), src/vita/time/datetime.c lines 90-111
  ⟨1, [.check .debug 0, .use 0]⟩,
  -- 204: vt_datetime_from_text(timebuf), src/vita/time/datetime.c lines 113-124
  ⟨1, [.check .debug 0, .call 207 [some 0]]⟩,
  -- 205: vt_datetime_from_text_iso(timebuf), src/vita/time/datetime.c lines 126-137
  ⟨1, [.check .debug 0, .call 208 [some 0]]⟩,
  -- 206: vt_datetime_from_text_iso_ext(timebuf), src/vita/time/datetime.c lines 139-150
  ⟨1, [.check .debug 0, .call 209 [some 0]]⟩,
  -- 207: vt_datetime_is_valid_text(timebuf), src/vita/time/datetime.c lines 205-211
  ⟨1, [.check .debug 0, .call 212 [some 0, none]]⟩,
  -- 208: vt_datetime_is_valid_text_iso(timebuf), src/vita/time/datetime.c lines 213-219
  ⟨1, [.check .debug 0, .call 212 [some 0, none]]⟩,
  -- 209: vt_datetime_is_valid_text_iso_ext(timebuf), src/vita/time/datetime.c lines 221-227
  ⟨1, [.check .debug 0, .call 212 [some 0, none]]⟩,
  -- 210: vt_datetime_to_text_fmt(timebuf, fmt), src/vita/time/datetime.c lines 348-357
  ⟨2, [.check .debug 0, .check .debug 1, .use 0, .use 1]⟩,
  -- 211: vt_datetime_from_text_fmt(timebuf, fmt), src/vita/time/datetime.c lines 365-380
  ⟨2, [.check .debug 0, .check .debug 1, .use 0, .use 1]⟩,
  -- 212: vt_datetime_is_valid_fmt(timebuf, fmt), src/vita/time/datetime.c lines 391-403
  ⟨2, [.check .debug 0, .check .debug 1, .use 1, .use 0]⟩,
  -- 213: vt_argopt_parse(argv, optv, alloctr), src/vita/util/argopt.c lines 6-90
  ⟨3, [.check .always 1, .check .always 0, .call 215 [some 1], .use 0, .call 55 [some 2]]⟩,
  -- 214: vt_argopt_print_help(header, footer, optv), src/vita/util/argopt.c lines 92-120
  ⟨3, [.check .always 2, .use 2]⟩,
  -- 215: vt_argopt_validate(optv), src/vita/util/argopt.c lines 124-138
  ⟨1, [.use 0]⟩,
  -- 216: vt_argopt_assign_value(opt, value, alloctr), src/vita/util/argopt.c lines 140-243
  ⟨3, [.stop 0, .stop 1, .call 53 [some 1, some 2]]⟩,
  -- 217: vt_debug_assert(zexpr, subject, file, func, zfmt), src/vita/util/debug.c lines 7-45
  ⟨5, [.use 1, .use 0, .use 2, .use 3, .use 4]⟩,
  -- 218: vt_debug_printf(subject, zfmt), src/vita/util/debug.c lines 47-72
  ⟨2, [.check .standard 1, .use 0, .use 1]⟩,
  -- 219: vt_debug_redirect_output(zfilename), src/vita/util/debug.c lines 74-76
  ⟨1, []⟩,
  -- 220: vt_log_redirect_level_output(zfilename), src/vita/util/log.c lines 13-19
  ⟨1, []⟩,
  -- 221: vt_log_redirect_all_output(zfilename), src/vita/util/log.c lines 21-25
  ⟨1, []⟩,
  -- 222: vt_log(zfilename, zexpr, file, zfmt), src/vita/util/log.c lines 34-75
  ⟨4, [.use 2, .use 3]⟩,
  -- 223: vt_vec_push_front##t(v) for all types t, src/vita/container/vec.c lines 145-149
  ⟨1, [.call 129 [some 0, none]]⟩,
  -- 224: vt_vec_push_back##t(v) for all types t, src/vita/container/vec.c lines 177-181
  ⟨1, [.call 130 [some 0, none]]⟩,
  -- 225: vt_vec_pop_get##t(v) for all types t, src/vita/container/vec.c lines 218-223
  ⟨1, [.call 132 [some 0]]⟩,
  -- 226: vt_vec_set##t(v) for all types t, src/vita/container/vec.c lines 253-257
  ⟨1, [.call 133 [some 0, none]]⟩,
  -- 227: vt_vec_get##t(v) for all types t, src/vita/container/vec.c lines 285-289
  ⟨1, [.call 134 [some 0]]⟩,
  -- 228: vt_vec_insert##t(v) for all types t, src/vita/container/vec.c lines 330-334
  ⟨1, [.call 135 [some 0, none]]⟩,
  -- 229: vt_vec_can_find##t(v) for all types t, src/vita/container/vec.c lines 387-391
  ⟨1, [.call 137 [some 0, none]]⟩,
  -- 230: vt_conv_str_to_##t(z) for all types t, src/vita/core/conv.c lines 7-22
  ⟨1, [.check .debug 0, .call 52 [some 0], .use 0]⟩,
  -- 231: vt_conv_##t##_to_str(buf) for all types t, src/vita/core/conv.c lines 36-45
  ⟨1, [.check .debug 0, .use 0]⟩]

/-- How a call ends: it goes through, the program ends with the report of an assertion, a NULL
is used, or the calls nest deeper than allowed for. -/
inductive Res
  | returns
  | report
  | undefined
  | deep
  deriving DecidableEq, Repr

/-- Is pointer argument `p` NULL?  `nulls` says for each pointer argument whether it is. -/
def isNull (nulls : List Bool) (p : Nat) : Bool := nulls.getD p false

/-- The pointer arguments of an inner call: own parameters (`some p`) or pointers of the function's
own making (`none`), which are not NULL. -/
def inner (nulls : List Bool) (args : List (Option Nat)) : List Bool :=
  args.map fun a => match a with
    | some p => isNull nulls p
    | none => false

/-- The steps of a function one after the other; `g` answers for inner calls. -/
def steps (debug : Bool) (g : Nat → List Bool → Res) (nulls : List Bool) : List Step → Res
  | [] => .returns
  | .check k p :: r => if inBuild debug k && isNull nulls p then .report else steps debug g nulls r
  | .use p :: r => if isNull nulls p then .undefined else steps debug g nulls r
  | .stop p :: r => if isNull nulls p then .returns else steps debug g nulls r
  | .call f args :: r =>
    match g f (inner nulls args) with
    | .returns => steps debug g nulls r
    | o => o

/-- A call of function `f` of the table with the given pointer arguments, with calls nested at most
`n` deep. -/
def run (debug : Bool) : Nat → Nat → List Bool → Res
  | 0, _, _ => .deep
  | n + 1, f, nulls => steps debug (run debug n) nulls (table.getD f ⟨0, []⟩).steps

end NullArgs
end Vita
