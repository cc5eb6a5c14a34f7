# Formal model of kirillsaidov/vita in Lean 4

`properties.jsonl` lists the properties (C01, C02, ...), `MANIFEST.json` maps each to theorems with a status and a note, `AXIOMS.txt` lists the axioms of
each theorem, `seeded/LOG.jsonl` records the mutation tests.  This file says what is modelled, how each property is proved, and what is trusted.

A property whose status is `partial` is one of two things: the claim holds under restrictions that are stated in the theorem (the theorem then ends in
`_partial`), or the claim is false for the code.  In the second case there are theorems that describe what the code does instead, with a concrete counterexample.

## 1. Architecture of the model

All Lean sources are in `lean/Verif/`.

* `Base/Outcome.lean` - the outcome of running C code: `ok v | exit why | ub | fuel`.  `exit` is a program termination by a failed `VT_DEBUG_ASSERT`,
  `VT_ENFORCE`, libc `assert` or a failed allocation; `ub` is undefined behaviour (an access outside an allocation, a read of an indeterminate byte that the code
  branches on, division by zero, arithmetic on NULL); `fuel` means "the loop did not finish within the given number of iterations" and is used only for C
  loops that are not bounded by construction.  A divergence theorem has the form "for every fuel the outcome is `fuel`".
* `Env`: the build (`debug : Bool`; with `debug = false` the `VT_DEBUG_ASSERT` and `assert` checks vanish and `VT_ENFORCE` stays, as with `-DNDEBUG`), an
  allocation oracle (which request sizes succeed), and whether `memcpy(p, p, n)` is undefined (as in ISO C) or tolerated.
  Theorems about calls that need memory end in "... unless a request for at most B bytes is refused" (`OkOr E B`, `LikeOr E B`, `Env.Refuses B`) with an explicit
  bound `B` made of the lengths of the texts involved and, for a destination handed over, its capacity: a call that asks for more than it needs breaks them.
* `size_t` values are natural numbers reduced modulo 2^64 at every addition, subtraction and multiplication of the C code (`wadd`, `wsub`, `wmul`);
  indexing through a typed pointer (`p[i]`) is pointer arithmetic and is not reduced.
* Memory (`Base/Mem.lean`): a block is a list of bytes, each `some b` (a defined value) or `none` (indeterminate, e.g. the tail of a `realloc`ed block).
  All reads and writes are bounds checked; failure is `ub`.
* `Base/CStr.lean` - `strlen`, `strnlen`, `strchr`, `strstr`, `strncmp` over such blocks.
* `Model/*.lean` - one definition per C function, each with a comment citing file and lines.
* `Spec/*.lean` - small independent specifications (list functions, calendar, numerals, IEEE numbers, ...), not using the model.
* `Lemmas/*.lean` - helper lemmas.
* `Props/*.lean` - the property theorems, with non-vacuity examples beside them.
* `Tests/*.lean` - the project's own test programs (`/repo/tests/src`, without the two for sockets) translated statement by statement and evaluated on the model by the
  kernel: a check that the model does what the authors expect.  Three remarks came out of it: the test of `vt_str_remove_last` passes only because its text is periodic
  (C29); test_path.c:193 fails on Linux, since the text of `readlink` is not terminated (C75); the remark at test_log.c:18 does not apply to the code as it is.

## 2. Trusted base

* Lean 4.33.0's kernel.
* The axioms `propext`, `Classical.choice`, `Quot.sound`.  `AXIOMS.txt` gives them theorem by theorem (output of `collectAxioms`): no theorem depends on any other
  axiom; no `sorry`, no `native_decide`, no `bv_decide`.  `decide +kernel` is used for concrete computations; it is checked by the kernel and adds no axiom.
* That the definitions in `Model/` say what the cited C lines do.  This is by reading; nothing was compiled.  The tests of the project, run on the model (`Tests/`), are
  a check of it.
* The contracts of the C library and of the system, written down in the model as definitions or inputs:
  - `memcpy`, `memmove`, `calloc`, `realloc` and the text functions: `Base/`.  LP64, 8-bit bytes, little endian, Unix branch of the `#ifdef`s, "C" locale; the
    functions of ctype.h answer for negative `char` values as for other bytes that are not ASCII (except in C119).
  - `vsnprintf` (C36, C116) by its output text or its failure; `strtol` and friends (C46-C48) by their standard description;
    `printf("%f")` and `strtod` (C90, C91) round correctly, as glibc's do; `long double` is the 80-bit format.
  - `malloc`/`free` for the tracking allocator: any address not in use; contents are not modelled.
  - `mktime`, `localtime` for a proleptic Gregorian calendar and a zone whose standard time has a fixed offset, with any rule for summer time (`Zone`); `strftime`, `sscanf`, `asctime` for the conversions used (`%Y` without zero filling, as in glibc).
  - The file system (`Model/Fs.lean`): a tree of files, directories and symbolic links seen by one process; resolution of names with at most 40 links, `PATH_MAX`;
    access rights, room for names and maximal file sizes are arbitrary predicates of the world; a directory has a size of 4096.
  - Sockets: the kernel's answer to each system call is an input, so all combinations of outcomes are covered; transfers of at most INT_MAX bytes;
    `inet_addr` is a parameter.
  - Loggers: the time and the formatted message are inputs.
  - Floating point: finite numbers are rationals, rounded to nearest even after each operation in the type of the operands; infinities and NaN are one value, the
    two zeros are not distinguished.  The library's `sin` is any function within 2^-40 of the sine; `pow(x, 2)`, `log` and `sqrt` (C94) have relative errors of at most 2^-50.

## 3. What is modelled, and what is not

| Source file | Model | Not modelled |
|---|---|---|
| container/common.c, vec.c | `Model/Vec.lean`, `VecFind.lean`; `Model/Alias.lean` for arguments inside the own block | allocator selection (in `Model/Owner.lean` only) |
| container/plist.c | `Model/Plist.lean` | as above |
| container/str.c | `Model/Str.lean`; `Model/Alias.lean`, `Model/AliasText.lean` for arguments inside the own block | allocator selection (in `Model/Owner.lean` only); the pointer list returned by the split functions is represented by its strings, its storage is in `Model/OwnerLib.lean` |
| container/span.c, algorithm/comparison.c, core/core.c | `Model/Small.lean`, `FloatCmp.lean`, `SpanTyped.lean`, `Malloc.lean` (`vt_malloc`) | none; the version getters and the macros for checks and logging are in `Model/Macros.lean`, the loop macros of core.h in `Model/Foreach.lean` |
| allocator/mallocator.c | `Model/Mallocator.lean`; `MalPrint.lean`; containers on this heap: `Model/Owner.lean`; with the contents in the blocks: `Model/OwnerMem.lean`, `Model/OwnerProg.lean` | |
| math/math.c | `Model/Math.lean`, `MathFloat.lean`, `MathReal.lean`, `MathNormal.lean` | |
| core/conv.c | `Model/Conv.lean`, `ConvFloat.lean` | the message for texts that are not numeric |
| time/datetime.c | `Model/DateTime.lean`, `DateDiff.lean` | zones whose standard time changes its offset; the clock is an input |
| util/argopt.c | `Model/ArgOpt.lean`; the strings it creates and destroys: `OwnerArg.lean` | messages; blocks of `VT_TYPE_CSTR` options are values, not blocks of the heap |
| system/path.c | `Model/PathText.lean`, `PathFs.lean` over `Fs.lean`; the lists and temporary strings of the directory functions: `OwnerLib.lean`; with other processes at work: `Race.lean` | Windows |
| system/fileio.c | `Model/FileIo.lean` over `Fs.lean`; opening and closing in `Model/Handles.lean` | `fclose` results |
| util/log.c, util/debug.c | `Model/Log.lean`, `Model/LogCode.lean`; the variable arguments, here and elsewhere: `Model/VaList.lean` | |
| network/sockets.c | `Model/Sockets.lean`, `Model/SocketFlow.lean`, `Model/Datagram.lean`, `Model/Poll.lean` | Windows start-up and clean-up, debug output |
| container/hashmap.c, algorithm/search.c | nothing: the files have no code | |
| all files, pointer parameters only | `Model/NullArgs.lean` | what a function does besides checking, using and passing on its pointers |

General simplifications:

* A container owns its block; pointer arguments never point into the block of another argument (no aliasing between `s` and `z` in `vt_str_append(s, z)`, ...),
  except in `Model/Alias.lean` and `Model/AliasText.lean`, which have the functions whose argument points into the container's own block.
* Arguments are non-NULL where the C code requires it. What the functions do with NULL is the subject of C143, in a model of its own: they check required pointers by `VT_DEBUG_ASSERT` or `assert` before use, with the exceptions listed there; without a
  check are the buffers and addresses of `vt_socket_send`, `send_to`, `receive`, `receive_from`, `poll` and the timed variants, and the file, function, subject and format
  arguments of the debug, log and allocator functions.
* Directories in the file system model have no search permission of their own.
* The choice between a custom allocator and `vt_calloc/realloc/free` does not change container semantics; containers are modelled over one allocation primitive.
* `VT_DEBUG_PRINTF` output is not modelled in the functions themselves, except where it makes their behaviour undefined: datetime.c:156 and 167 (argument for
  `%s` missing) and log.c:50 (`%i` for a `size_t`, the only such message of vt_log).  The messages of mallocator.c:77, 108, 128 have the same fault (`%d` for a
  `size_t`) in every call of the allocator in debug builds; C38 and C39 are about builds for which this is merely a wrong number.  All formats are in
  `Model/Printf.lean` (C108).  Single thread; other processes only in `Model/Race.lean`.
* Simplifications that concern one function are stated in the comment of its definition.

## 4. The properties

"Refuted" means that there is a counterexample theorem; the rest of the entry is what is proved instead.

| Property | How it is stated and proved |
|---|---|
| C01, C02 | Every vec.c mutator at byte level simulates an abstract list machine (`Spec/Seq.lean`, `Spec/VecAbs.lean`); induction over arbitrary call histories. C02: the same invariant gives absence of `ub`; observers in `Props/Slides.lean`. C02 refuted for `vt_vec_slide_back` and for typed accessors wider than the elements. |
| C03 | Invariant over the number of pushes, with a counter of moved elements added to the model. |
| C04-C07, C11 | Functional equations on the element view of the block. |
| C08 | Proved for non-empty vectors. Refuted for empty ones (`C08_dup_empty_exits`). That the copy is independent: `C08_independent`, for programs in one memory (see C117). |
| C09, C10 | Induction on calls, for vectors (`Props/Iter.lean`), lists and strings (`Props/Slides.lean`). C10 refuted: sliding back leaves the buffer for every non-empty vector, list and string. |
| C12 | Proved when the product does not wrap, for create, reserve and resize (`Props/Slots.lean`); refuted otherwise. |
| C13, C14 | plist.c as vec.c with 8-byte elements: equality of the two models, then C01, plus the pointer view. Removal by value with either strategy; strategy numbers outside the enumeration (`Model/RemoveCode.lean`). |
| C15, C16 | Every str.c mutator at byte level; invariant `IsStr` and refinement to lists of characters over histories. C15 refuted outside the obligations `Legal`. |
| C17-C25, C35, C36 | Single functions against `Spec/Text.lean`, `Spec/TextOps.lean`. Refuted: C17 (debug builds), C18 (end), C20 (wrong position), C21 (empty text diverges), C24 (last, overlaps), C35 (views after clear and append), C36 (`vt_str_insertf` with a text of exactly `INT_MAX` characters overflows an `int`; a NUL inside the formatted text: `C36_appendf_nul`, `C36_insertf_nul`). |
| C26-C34 | As above, with induction over the text for search and split. Refuted: C26 (nothing left), C28 (long sub), C29 (two empty pieces), C30 (join of split), C31, C32 (last). |
| C37, C40, C41, C68, C69 | Arithmetic and case analysis. Refuted: C37 (windows at 0, inverted), C68 (size 0). |
| C38, C39 | Invariant over histories: the table is a permutation of the live blocks. |
| C92 | The same invariant with a count of the bytes handed out; the text line by line. |
| C42-C44 | Euclid by strong induction; palindromes by digit sums modulo 9 for wrapped values; `Props/GcdSign.lean` has arguments of any sign. Refuted: C43 (zero, minimum). |
| C45 | Range of the linear congruence; `[0, bound)` for floats from a table of odd multiples of pi/2 and rational bounds of pi. Refuted: upper end of the uniform variant. |
| C46-C48 | Lemmas on digit strings. Refuted: C47 (negative numbers). |
| C49-C52 | The C library's formula counts days (`Spec/Calendar.lean` counts one by one, forwards and backwards from 1970). Refuted: C50 (every century year not divisible by 400), C51 (every date before 1970: -1 in release builds, undefined in debug builds). |
| C53, C54, C72 | Formatting and reading as inverse list functions, for years of four digits; all other years are written but not read back (`C53_other_years`), and the year 0 comes back as 3800 (`C53_year_zero`). Refuted: C54 (separators, over-read). |
| C90, C91 | `Spec/Decimal.lean` says what the text with six decimals is (it is unique). Reading is one correct rounding. C91: two roundings to nearest give the bound; a number closest to a decimal is closest to its own decimal. Refuted: C91 (every negative number comes back as 0). |
| C89 | The clock is an input; composition of C49, C53 and C72. |
| C55-C57, C73, C74 | `Spec/ArgOpt.lean` is a grammar of argument lists; induction over argv. Refuted: C57 (values of another length), C55, C56 (empty text, `C55_empty_value_ends`, `C56_empty_argument_ends`). The grammar has a parameter for debug builds, in which an empty argument is never read as an option. `Props/ArgExact.lean` removes the restrictions: the outcome for every argument list as that of a list of assignments (`putAll`), which may fail. |
| C58-C60, C75 | List lemmas on the last separator. Refuted: C58 (empty), C59 (several forms), C60 (tilde alone), C75 (executable). |
| C61-C63 | `C61_effect` reduces `vt_path_mkdir_parents` to one `mkdir` per stage of the path; induction over the stages and over the tree. `Props/PathAny.lean` has C62 and C63 for any file system, with links: the directories visited are an inductive relation (`Visits`), paths resolve alike in a world with nodes removed (`resolve_less`), and the recursion ends since paths have a greatest length. `Props/ListExact.lean` determines the recursive listing exactly, also where directories cannot be opened. `Props/RmdirExact.lean` determines what `vt_path_rmdir_recurse` removes and returns in a plain tree, for every pattern of permissions; `Props/RmdirAny.lean` does so in any file system (`TakenDown`: the listing, entry by entry up to the first that cannot be removed), and lists the reasons for failing and for leaving something behind. Refuted: C61 (single name, true on failure), C63 (links, true on failure). |
| C64, C65 | Induction over histories of writes; `Rewritten` relates two states of the file system. Refuted: C64 (full disk, empty file). |
| C66, C76 | Induction over call histories with a fold that gives the expected output. Refuted where a file cannot be opened; what happens then is proved as well: the exact effect of every history, whatever the limits on the sizes of the files (in debug builds the message of C66 about the failure has a wrong format, so a history is undefined exactly if it gets there). |
| C67, C77 | Case analysis over all kernel answers; counts of 2^31 and more in `Props/SocketHuge.lean`. Refuted: C67 (descriptor leak, ambiguous status, port). |
| C70, C71, C78 | Monotonicity and relative error of IEEE rounding (`Lemmas/Float.lean`), Sterbenz' lemma, Newton iteration on `y^2 v`. Refuted: C70 (upper end), C71 (negative tolerance, rounding), C78 (subnormal numbers, zero). |
| C79, C80 | The memory is read at the time the C code reads it, and a read after the block was given to `realloc` is undefined. Proved while there is spare room. Refuted: without room (use after free), C80 for an insertion inside the inserted text. `vt_str_insert_before` and `vt_str_insert_after` in the same way (`Model/AliasFormat.lean`). |
| C81 | Error analysis of the five roundings: to the second for up to 2^24 seconds, relative to the distance for all of them. Refuted: a second is lost already after one day, minutes after 87 years; 90 to 179 years make the number of days negative. |
| C82 | `Agree` (same outcome, or a failed debug check) is a congruence of the outcome monad; one lemma per function (`Lemmas/Release.lean`), then histories. Carries C01 and C15 over to release builds, and C16, C36, C97, C116, C118 (`Props/AnyBuild.lean`). Refuted for dates before 1970 (`C82_date_create_refuted`). |
| C83 | The loops with an arbitrary callback that has a state of its own and may rewrite the element; induction over the elements already visited, against `Spec.visit`. |
| C84 | Induction over the appended values; the allocator parameter is arbitrary, so it may refuse everything. |
| C85 | All bytes up to the capacity are assumed written (`strnlen` reads them); a view has capacity 0 and is damaged (counterexample). |
| C86 | Over the file-system model (`Model/Fs.lean`): each call against what is at every path before and after.  Counterexamples: a dangling link counts as not existing for rename and remove, and `vt_path_mkdir` returns true for an existing file. |
| C87 | `Model/Owner.lean` runs programs of container calls on the heap of the tracking-allocator model: each call changes the contents as in the container models and performs its list of memory requests; that the list is right is part of the theorem (`C87_requests`).  Not in the programs: views, `vt_str_take_ownership` (separate theorem) and functions that create a destination themselves (`vt_str_split_between` loses it: counterexample). |
| C88 | `Model/OwnerLib.lean` writes the functions that create and destroy containers themselves (split, join, build, the directory functions, `vt_path_dir_free`, file reading, pop-get) as programs over the commands of C87.  Each is shown to end like the model without a heap (`Str.split`, `Path.dirList`, ...), which C29, C61-C63 etc. are about, and to leave only what `Spec/OwnerLib.lean` says; `RunsAs` carries this to the heap from any reachable state.  Memory for lists and headers may be refused in addition.  Refuted: `vt_path_dir_free` on a list whose slider has moved, splitting or listing into a list that holds strings. |
| C93 | `vt_argopt_parse` as a program over the commands of C87, as for C88.  Options point to numbered strings; `Shows` relates them to the options with values of `Model/ArgOpt.lean`.  Invariant of the loop over the arguments: `Parsed` (what has been created, for whom, with which allocator). |
| C94 | Error analysis of the roundings with relative errors (`Near`); the C library functions are parameters with a contract (`GoodLibm`, satisfiable: `goodLibm_exists`). The bound 8.25 comes from `W` being at least 2^-49.  All results are about calls that return; which calls do is C96. |
| C95 | The step of the generator multiplies the distance from its fixed point by 214013 modulo 2^32 - 1 = 3 * 5 * 17 * 257 * 65537; orders of 214013 modulo the factors. That the *results* (15 of the bits) have no shorter period: equal results half a period apart would force two consecutive distances into five residues modulo 65537. |
| C96 | Every cycle of the generator (C95) has a state that is 1 modulo 65537 from the fixed point, 3855 of them, or belongs to the 3855 states of the short cycles; for each the kernel computes a pair accepted within 14 pairs, with bounds of the sine from the distance to multiples of pi, whatever the last bits of the C library's results are. The stuck generator gives sums of squares above 1.6. |
| C97 | The specified outcome of a call (C15, C01) depends on the capacity only in whether memory is requested, shown call by call for a pair of states; `remove_all` always deletes the first occurrence, so that its result is determined. |
| C98 | Compositions of the calls of C05, C16, C25, C32, C30, C58 and C60; the lists are shown equal by splitting them at the place of the edit. |
| C99 | Compositions of the calls of C21, C22, C26, C34 and C60 with the uniqueness of the specified result. |
| C100 | `mktime` reads the fields as standard time because `tm_isdst` is 0, `localtime` uses the offset in force (`Zone`). Everything is shown to be off by exactly as much as clocks are ahead of standard time at the moment in question. Refuted: every moment in summer time (`C100_secs_round_trip_partial`), empty deltas drift (`C100_op_drifts`), the week day after 23:00 (`C100_week_day_wrong`). |
| C101 | The days before a month whose number is out of range are those of the month it denotes (`dayNumber_month`); dates with equal moments are equal. |
| C102 | As for C80 (`Model/AliasText.lean`). Removing the first occurrence, removing characters, replacing the first occurrence and taking the base name are right; stripping as in C26. Replacing all occurrences is right if the text occurs once and the result fits (not covered: the empty text at the end of the string, see seeded fault 8S02); replacing characters if they are distinct and no replacement is among them; beyond that both are refuted. `vt_str_remove_all` never ends, `vt_str_split_between` is undefined, popped fields are lost (first) or the call is undefined (last). |
| C103 | `Model/VecFind.lean`, with `Spec/FloatBits.lean` for what a bit pattern stands for and for `==`. Proved for the integer types; for `float` and `double` unless the value sought is a NaN or a zero whose opposite is in the vector (two patterns are `==` only if they are the same or both zero). The search is a `memcmp`, so 0.0 does not find -0.0, a NaN finds itself, and a `long double` is found only if its padding bytes match: stated as theorems. |
| C104 | The same functions as for C41, for any type whose patterns have IEEE values (`Model/FloatCmp.lean`, `Spec/FloatBits.lean`). Bounds, clamping and idempotence are proved; clamping between numbers is right even for a NaN. That a NaN is passed over is false: minimum and maximum return the second argument if one is a NaN, and a NaN as upper bound makes the result NaN. |
| C105 | `Model/SpanTyped.lean`; from C37 and the bytes of numbers. As in C37, windows at 0 are refused in debug builds. With a type smaller than the elements the setter reads beyond its parameter; with a larger one the getter reads beyond the array. |
| C106 | `Model/SocketFlow.lean`: the stream of a connection is what `send` recorded; `recv` takes from its front. Induction over the calls, from C77. |
| C107 | `Model/SocketFlow.lean`: `poll` with a limit, as POSIX describes it. Refuted for limits of 2^31 ms and more (they become negative, so no limit), and an error without data is reported as 0. |
| C108 | `Model/Printf.lean`: `printf` for the conversions that occur, and the list of all calls with a fixed format, extracted from the sources. A type check of formats that implies the claim (induction over the format), evaluated for each call. Refuted for six calls. Also: the formats of log, help and statistics print what the other models say. |
| C109 | `Model/Datagram.lean`: the network may deliver any datagram sent to an address any number of times. Induction over the calls, from C77. That a datagram did not fit is not shown to the caller (`C109_cut_not_shown`). |
| C110 | A call needs a new block if it is refused memory on a machine that grants only blocks of one member; then all members may have to be moved (the worst case of `realloc`). Vectors and pointer lists: induction over the calls, from C01 and C13. Refuted for strings, which grow by what is missing only (`C110_string_quadratic`). |
| C111 | The three loop heads of core.h over 64-bit numbers, with any statement that leaves the variable alone (`Model/Foreach.lean`). Exact for `VT_FOREACH`; exact for `VT_FOREACH_STEP` if step > 0 and to + step ≤ 2^64. Refuted otherwise: `VT_FOREACH_R` visits to, …, from + 1 (`C111_reverse_shifted`), and `VT_FOREACH_STEP` need not end (`C111_step_zero_never_ends`, `C111_step_wraps`; which loops end: `C111_step_ends_exactly`). |
| C112 | log.c for arbitrary level numbers (`Model/LogCode.lean`), and the functions of datetime.c. Proved: months out of range; the year 1900 in the leap year test and the length of the year for negative years. Refuted: any other level number ends debug builds and indexes outside of a table in others (`C112_log_level_actual`); February of negative years has 29 days; conversions to seconds and differences never replace a year (`C112_to_secs_actual`, `C112_diff_actual`); dates that do not exist are counted on, not answered with -1 (`C112_invalid_date_counted_on`). |
| C113 | Relation between two runs (`Lemmas/Scarce.lean`, one lemma for each function of the model that depends on the environment; `Props/Scarce.lean`): with less memory the outcome is the end of the program for want of it, or the same. Whether a request is granted depends only on its size, not on earlier requests. The headers promise NULL for creations that fail; `C113_creation_ends` shows that the program ends instead. |
| C114 | `Model/Macros.lean`: token pasting with the rule that every intermediate result has to be a preprocessing number, for all decimal version numbers without leading zeros. Fields are compared exactly: they hold a number if and only if it is below 256. Not modelled: the variant for TCC, whose pasting of `]` and `.` is undefined. |
| C115 | `Model/Macros.lean`: the expansion of the macros of debug.h and log.h into the calls of `Model/Log.lean`, by induction over the sequence of uses. The file name is specified as the part behind the last separator, which is unique. Output goes to `stderr`; redirected output is the subject of C66 and C76. |
| C116 | `Str.appendfStatus`, `Str.insertfStatus`: the outcome of the formatter is a parameter; failure leaves the whole object unchanged. `_partial`: success of `vt_str_insertf` without the case of exactly `INT_MAX` characters (`C36_insertf_longest`). `Model/FormatCalls.lean` gives each call of the formatter its own outcome: refuted for texts that can be measured but not written (`C116_append_unwritten`, `C116_insert_unwritten`). |
| C117 | `Model/OwnerMem.lean`: the programs of C87 with all contents in one store from addresses to headers and byte blocks; calls find headers and buffers by following pointers, `realloc` moves what a block holds, `free` removes it, addresses are used again. The programs on contents alone (`plainRun`, Spec part of `Props/Owner.lean`) are what is refined. What a call writes before it returns is not followed step by step: the buffer gets its final contents at its final address. A program that uses a destroyed container is undefined and not constrained. |
| C118 | `Model/AliasFormat.lean`: the output is a list of pieces, foreign text or a range of the string's block; the formatter reports the bytes it reads. Proved for `vt_str_insertf`, which formats into a temporary. `_partial` for `vt_str_appendf`: with room, and only parts in front of the end. Refuted otherwise (`C118_appendf_reads_end`, `C118_appendf_no_room`): `%s` reads the terminator that the same `vsnprintf` overwrites, and a block that was reallocated is read at its old place. A format string that is the text itself is a `%s` piece in this respect. |
| C119 | `Model/Ctype.lean`: the functions that call ctype.h once more, with the precondition of C11 7.4 checked and the signedness of `char` a parameter. Proved equal to the other models for texts without bytes 128 to 254 and for unsigned `char`; refuted otherwise (`C119_case_undefined`, `C119_strip_undefined`, `C119_numeric_undefined`, `C119_stamp_undefined`). The other models let these functions answer for every byte, as glibc and others do. |
| C120 | `Model/Align.lean`: the address of the buffer added to the models of the typed functions; an access through a typed pointer that is not a multiple of the type's size is undefined. Assumed: `calloc` and `realloc` return multiples of 16. Proved equal to the models without addresses under the proviso, for every index; `C120_span_undefined`, `C120_vec_undefined` show that the proviso is needed. Not modelled: the conversion of the caller's variable's address to `void**` by `VT_ARGOPT` (argopt.h:19), which C11 allows only for addresses that are multiples of 8. |
| C121 | `Props/Pointers.lean`, over the machine of C117. The rule is `Stays`, in terms of length, capacity and the lengths of the arguments; it is applied call by call to a whole program. The size of a replaced text is compared by `strlen`; for a shorter replacement the string must have a buffer of capacity + 1 bytes, which all strings created by the library have. Not covered: the pointers inside one call (what a call writes before it returns is not followed, see C117), and temporary moves within a call. |
| C122 | `Model/OwnerProg.lean`: the programs of C88 (commands, looking at containers, decisions) on the machine of C117; `Props/OwnerProg.lean`. The version without a memory (`Prog.plain`) is the specification. A program does not look at addresses; a pointer to a string that is an element of a list is the number of the string. An argument taken from another container is taken at the beginning of the call; that the other container is not touched by the call is `C117_frame` and the last part of `C122_append_other`. An argument that points into the same container is the subject of C79, C80, C102 and C118. |
| C123 | `Props/Ends.lean`. The number of rounds that a loop of the model gets is shown to be no part of its meaning: `EndsBy K f` says that all numbers from `K` on give one and the same outcome, which is not `fuel`; `NeverEnds f` that no number is enough. False for the empty text in five functions (`C123_exactly`: `can_find`, `split`, `remove_last`, `remove_all`, `strip_c` run forever exactly then). The memory and the length of the string are arbitrary (damaged strings); `AnyStr` bounds them by what an address space can hold. Loops over a fixed number of elements are recursive over that number in the model and end by construction; the loop macros are C111, the normally distributed random numbers C96. |
| C124 | `Model/ArgShared.lean`, `Props/ArgShared.lean`. The variables are a store and the options hold numbers of variables. The outcome for every table and argument list is that of the list of assignments to variables (`putAll` of C55 with options renamed to variables); `C124_own_variables` shows that with different variables this is the model of C55. Refuted for C strings: a longer value under the second name runs over the block of the first one (`C124_longer_alias_overruns`). |
| C125 | `Model/ApplyAny.lean`, `Props/ApplyAny.lean`. The three loops with a callback that is a function of its state, the container and the index, and gives both back. Proved for strings and for lists of pointers. False for vectors, whose loop compares with the length at the moment: exact condition for its end (`C125_vec_actual`), leaves the block otherwise (`C125_vec_leaves_block`), e.g. with a callback that pops and an odd length (`C125_vec_popping`); proved for callbacks that keep the length. |
| C126 | `Model/Poll.lean`, `Props/Poll.lean`. The kernel's `poll` over time: conditions on every descriptor, a list of later changes and signals. By induction over that list, against the conditions at each moment (`condsAt`). `C126_receive_timed` shows that C107 is the case of one descriptor. Refuted for limits of 2^31 ms and more: the call need never return (`C126_long_limit`, exact). |
| C127 | `Props/Occurrences.lean`. Laws of the specification functions of C23, C27, C29 (replacing is joining the pieces with the replacement; one piece more than occurrences; the pieces of joined texts), proved by induction, applied to the functions. |
| C128 | `Props/DateSum.lean`. Sequences of spans by induction from C100/C101, with the moments in between in years other than 0. The year 0 is read as 3800 (datetime.c:328), so a sum through the year 0 comes out 3800 years late (`C128_year_zero`). Months in two steps agree with months at once exactly if the month reached first has the day or as many days as the last (`C128_months_exactly`). |
| C129 | `Spec/Tree.lean` says what each call means for a function from paths to what is there; `Props/FileTree.lean` shows that the modelled calls match it step by step (`match_call`) and, by induction over the program, for every program (`C129_program`). The file system is without links, with all rights and room (`Free`, kept by every call); paths are absolute texts without a trailing separator. Corollaries: failed calls, what is not named, there and back, renaming after writing. Calls on file systems with links, missing rights or a full disk are the subject of C61-C64 and C86. |
| C130 | `Props/MalForeign.lean`: the histories of C37-C39 (`Hist`) with three more kinds of step: a block of other origin is reallocated, or freed, through the allocator, and NULL is reallocated. The invariant of C37 without its count (`InvCore`) is kept, and the count holds with the number of blocks taken over added. `realloc` of NULL allocates, as C says. |
| C131 | `Spec/TreeMore.lean` adds five calls to those of C129 (reading a whole file with `vt_file_read` only if it is not empty, see C64); what they mean for a tree is a relation, since the order of a listing is up to the file system. `Props/FileTreeMore.lean`: each call matches (from C61-C63, with the new file system shown to be without links and free again), then induction over the program. Assumed where a branch is gone through: the texts of the paths in it are shorter than `PATH_MAX` (`AllFit`); memory may be refused. |
| C132 | `Props/ArgOrder.lean`, from the exact outcome of parsing (C55). The assignments succeed iff each option accepts its own values (`putAll_of_own`), so only the values of each option count; readings of lists can be put together (`reads_append`). For the repetition: C strings are overwritten from the beginning, and overwriting again with the same texts changes nothing (`overlays_again`). |
| C133 | `Props/PathNames.lean`. The text `a/n` resolves to `p` iff `a` resolves to a directory whose entry `n` is `p` (`resolve_child`, induction over the names and the links followed, both directions); with the exact texts of C58-C60 and the listings of C62. `C133_pop_exceptions` has the cases in which popping does not lead to the directory. |
| C134 | `Props/DateOrder.lean`. The order of `strcmp` (`TextBefore`) on concatenated blocks of equal length is lexicographic, and on padded numbers it is that of the numbers; with the exact texts of C53 and the monotonicity of C49 (both directions by trichotomy). `C134_short_years` shows why the year must have four digits. |
| C135 | `Model/VaList.lean` has the events of each variadic function on every way through it; `Spec/VaList.lean` the rules of ISO C 7.16 as a machine on the states of the lists. Case distinction over the ways, induction for the counted functions. Refuted: `vt_log` (file cannot be opened), `vt_str_appendf` and `vt_str_insertf` (formatting fails) return without `va_end`. The other models leave this aside: they have the behaviour of machines on which `va_end` does nothing. |
| C136 | `Model/Handles.lean` has the functions once more with the handles of the process: a limit and the open ones, where using or closing what is not open is undefined. Equal to the functions without handles if one more can be had; recursion by the proof of `C62_exact` with the number of handles left, `C136_deep` characterises completeness; programs by induction (`C136_program`). Refuted for debug messages: if their file cannot be opened, `stderr` is closed (`C136_stderr_closed`). Not modelled there: debug messages written while a file is open. |
| C137 | `Model/Race.lean` has the directory functions and the reading functions once more, with an arbitrary change of the file system before each call of the system. Equal to the functions without others if the others do nothing (`C137_quiet`, `C137_quiet_list`); single entries, renaming (`C137_rename`) and the listing of one directory (`C137_dir_list`) by cases; reading for any contents at the moment of reading; the recursive listing by induction, as `C62_exact` with the moments of the calls; `vt_path_mkdir_parents` with others that also make directories by an invariant over the names of the path; removal by invariants of the file system. The last sentence of the property is refuted: `C137_mkdir_lost_race` (in general) and `C137_rmdir_outside` (a directory that is replaced by a link after it was listed). Directories are read, and files are read, at one moment each. |
| C138 | `Props/Lines.lean`: the history of `C64_history` for calls of `vt_file_appendln` on any files, then `C64_read_after_partial` and `C29_split_partial`. Refuted if the last line is empty: splitting then reads behind the buffer (`C138_last_line_empty`, in general). |
| C139 | `Props/Invocation.lean`: the texts of C46, C47, C90 and C91 as values in C55. Negative numbers, infinities and NaN arrive as zero (part of the statement, `Arrives`); empty strings and old C strings of another length are excluded as in C55. |
| C140 | `Model/Threads.lean`: pieces of code (`Prog`) with their own numbering of containers, woven into one piece of code by an arbitrary order of turns. By an invariant over the order (`Apart`): disjoint containers, each with the contents of a run alone, and with the rest of the code having the outcome of the code alone; the number of turns left goes down. In memory by `C122_run` for the woven code. A call is one turn: calls of two threads at the same time are not modelled (the library has no locks). Pointers stored in lists are numbers of containers, as in `Model/OwnerLib.lean`. |
| C141 | The state after any calls by `C66_history_partial`, the file at its name by `logRun_keeps` (logging moves no names), reading by C64, splitting by C29: a log line is never empty, so the failure of `C138_last_line_empty` cannot happen. `loggedAt` is the specification: the lines due (`emits`, from C66) whose file name leads to the file. The texts must not contain line ends; the file must have room. |
| C142 | `Props/Utf8.lean`; no new model. `Spec.utf8` is the encoding of Lean's own `String` (`String.utf8EncodeChar`). From two facts about it (no encoding is the beginning of another one, only the first byte of a character is a first byte) it follows that bytes match only where characters match (`C142_occurs`, `C142_first`). With that the byte-level theorems (C16, C18, C19, C21-C24, C26-C34, C58, C59) are restated for sequences of characters. `C142_insert` and `C142_boundary` are exact. Partial where the byte-level theorem is, and for sets of characters (`vt_str_remove_c`, `vt_str_strip_c`) outside ASCII: `C142_remove_c_breaks` shows that they take characters apart. |
| C143 | `Model/NullArgs.lean`, `Props/NullArgs.lean`. The model is a table of all functions with pointer parameters, each reduced to the steps at which NULL makes a difference (checks by kind of assertion, first use, calls of other functions of the table, early returns), transcribed with a script from the source and checked by reading; a small interpreter follows calls to any depth (`run_le`: depth 5 is enough). The lists of optional, unchecked and stored parameters in `Props/NullArgs.lean` are the statement; that they fit the table is decided by the kernel for every function and every combination of NULLs (`C143_debug`, `C143_unchecked`, `C143_release`, `C143_options`). A use in the table may stand in a branch: "undefined" means that nothing prevents it. Functions generated by a macro for the types of numbers share an entry. |
| C144 | `Model/Malloc.lean` (`vt_malloc`; programs as trees of calls of the memory functions, branching on what they read), `Props/Malloc.lean`: a relation between two runs, in which every byte known after `vt_malloc` is the same after `vt_calloc`, is kept by each memory function (`like_…`), hence by every program, by induction on it. The same relation, with any bytes in place of the zeros (`vtMallocWith`, other bytes for each block), gives `C144_any_contents`. That freed blocks stay freed (`C144_stays_freed`) is another induction on the program; that their use is undefined (`C144_freed`) is how the model treats them. Blocks are apart from each other and `vt_realloc` keeps the number of a block; addresses are not in this model (they are in C117). |

Every property of `properties.jsonl` could be expressed in the model; none is `not_applicable`.

## 5. Mutation tests

Realistic bugs are put into copies of the model outside this repository (`seeded/LOG.jsonl`): for each the log names the definition, the edit, the claim that
becomes false, the theorems that no longer check (those whose own proof fails, and those that depend on one of them), and the theorems tightened where none failed.
