{"id": "C01", "title": "A vector is a sequence under every operation history", "statement": "Starting from vt_vec_create, after any history of vt_vec_push_back, push_front, insert, set, remove (stable and fast), pop, clear, reserve, resize and shrink, vt_vec_len and the bytes of every element returned by vt_vec_get are exactly those of a mathematical list subjected to the corresponding list operations (append, prepend, insert-before-index, overwrite, delete keeping order, delete by moving the last element into the hole, drop last, empty, truncate/extend); capacity changes and reallocations are never observable in the contents. A call that violates a documented precondition terminates the program in the debug build instead of returning.", "quantifier": "every element size >= 1, every initial capacity >= 1, every finite operation history and every element value, as long as the requested byte counts do not exceed SIZE_MAX", "why_tests_cant": "Histories interleave growth, shrinking and index shifts without bound; a test fixes one history and one element size, while the claim is an induction over all of them.", "anchors": ["src/vita/container/vec.c:vt_vec_create", "src/vita/container/vec.c:vt_vec_push_back", "src/vita/container/vec.c:vt_vec_insert", "src/vita/container/vec.c:vt_vec_remove", "src/vita/container/vec.c:vt_vec_resize", "src/vita/container/vec.c:vt_vec_reserve", "src/vita/container/vec.c:vt_vec_shrink"]}
{"id": "C02", "title": "Vector calls never access memory outside the vector's buffer", "statement": "In the debug build no history of vector calls (with any arguments, valid or not) reads or writes outside the buffer owned by the vector, nor performs an overlapping copy between distinct elements; after every call the length is at most the capacity and the buffer holds exactly capacity*elsize bytes.", "quantifier": "every finite history of vector calls with arbitrary indices and counts, provided capacity*elsize does not exceed SIZE_MAX", "why_tests_cant": "Out-of-bounds accesses often go unnoticed at run time, and the bad index may need a specific capacity/length combination reached by a long history.", "anchors": ["src/vita/container/vec.c:vt_vec_insert", "src/vita/container/vec.c:vt_vec_remove", "src/vita/container/vec.c:vt_vec_push_back", "src/vita/container/common.c:vt_array_has_space"]}
{"id": "C03", "title": "Vector growth never shrinks, and reallocation is amortised", "statement": "Pushing onto a vector never decreases its capacity; a push reallocates only when length equals capacity, and then the capacity becomes three times the old one. Consequently, n pushes onto a fresh vector of capacity c reallocate at most log_3 of the growth factor, i.e. if r reallocations happened then c*3^(r-1) < n + 1, and existing elements keep their values.", "quantifier": "every initial capacity, every number of pushes and every pushed value", "why_tests_cant": "An asymptotic bound on every push count cannot be checked by running finitely many pushes.", "anchors": ["src/vita/container/vec.c:vt_vec_push_back", "src/vita/container/vec.c:vt_vec_reserve", "inc/vita/core/core.h:VT_ARRAY_DEFAULT_GROWTH_RATE"]}
{"id": "C04", "title": "Setting one vector element leaves all others unchanged", "statement": "After vt_vec_set(v, val, i) with i < len, vt_vec_get(v, i) yields the elsize bytes of val, vt_vec_get(v, j) is unchanged for every other j < len, and length and capacity are unchanged.", "quantifier": "every vector, every index in range, every value", "why_tests_cant": "A frame property over all indices and all element sizes; a byte-offset slip shows only for particular sizes and positions.", "anchors": ["src/vita/container/vec.c:vt_vec_set", "src/vita/container/vec.c:vt_vec_get", "src/vita/container/common.c:vt_array_set", "src/vita/container/common.c:vt_array_get"]}
{"id": "C05", "title": "Removing from a vector removes exactly the chosen element", "statement": "vt_vec_remove(v, i, STABLE) yields the old elements without the i-th, in their old order; vt_vec_remove(v, i, FAST) yields the old elements without the i-th where the former last element now sits at i and everything else stayed in place. Both results hold the same multiset of elements and capacity is untouched.", "quantifier": "every non-empty vector, every valid index, both removal strategies", "why_tests_cant": "The relation must hold for all lengths, indices and element sizes, including the boundary where i is the last index.", "anchors": ["src/vita/container/vec.c:vt_vec_remove", "src/vita/core/core.c:vt_gswap", "src/vita/core/core.c:vt_memmove"]}
{"id": "C06", "title": "Vector push and pop are inverse (LIFO)", "statement": "After vt_vec_push_back(v, val), vt_vec_pop_get(v) yields val and the vector has its previous length and elements again. On an empty vector vt_vec_pop leaves it unchanged, vt_vec_pop_get returns NULL and the typed pop_get functions return 0.", "quantifier": "every vector and every value, including a full vector that must grow", "why_tests_cant": "Needs all capacities including each growth boundary, and all prior histories.", "anchors": ["src/vita/container/vec.c:vt_vec_pop", "src/vita/container/vec.c:vt_vec_pop_get", "src/vita/container/vec.c:vt_vec_push_back"]}
{"id": "C07", "title": "Vector search returns the first matching index", "statement": "vt_vec_can_find(v, val) returns the smallest index whose element bytes equal val, and -1 exactly when no element equals val.", "quantifier": "every vector (of length at most the maximum of the return type) and every searched value", "why_tests_cant": "First-ness and completeness quantify over all elements of all vectors.", "anchors": ["src/vita/container/vec.c:vt_vec_can_find", "src/vita/core/core.c:vt_memcmp"]}
{"id": "C08", "title": "Duplicating a vector copies its contents", "statement": "vt_vec_dup(v) of a non-empty vector yields a vector with the same length, element size and elements, and capacity equal to the length; v is not modified. For an empty vector the documentation promises a copy as well.", "quantifier": "every vector, empty or not", "why_tests_cant": "Equality of all elements for all element sizes and lengths; the empty case is easy to leave out of a test.", "anchors": ["src/vita/container/vec.c:vt_vec_dup", "src/vita/container/vec.c:vt_vec_create"]}
{"id": "C09", "title": "Forward sliding visits every element once and in order, then restarts", "statement": "Calling vt_array_slide_front (or the vec/plist/str variants) on a container of length n whose slider is reset returns elements 0,1,...,n-1 in order, then NULL once, after which the slider is reset and the same sequence repeats; the contents are not changed.", "quantifier": "every container and every number of slide calls", "why_tests_cant": "The claim is about unboundedly long call sequences (periodicity).", "anchors": ["src/vita/container/common.c:vt_array_slide_front", "src/vita/container/plist.c:vt_plist_slide_front", "src/vita/container/common.c:vt_array_slide_reset"]}
{"id": "C10", "title": "Backward sliding visits every element once, from last to first", "statement": "Calling vt_array_slide_back (or the vec/plist/str variants) on a container of length n whose slider is reset returns elements n-1,n-2,...,0 in order, then NULL once, and then restarts.", "quantifier": "every container and every number of slide calls", "why_tests_cant": "Requires all lengths; the existing tests never call it.", "anchors": ["src/vita/container/common.c:vt_array_slide_back", "src/vita/container/plist.c:vt_plist_slide_back"]}
{"id": "C11", "title": "Typed vector accessors round-trip every value", "statement": "For a vector whose element size is the size of the fixed-width integer type T, pushing, inserting or setting a T value with the typed functions and reading it back with the typed getter yields exactly that value, for every bit pattern.", "quantifier": "every value of each fixed-width integer type (8/16/32/64 bit), every vector and position", "why_tests_cant": "Ranges over all 2^64 values and all positions.", "anchors": ["src/vita/container/vec.c:vt_vec_geti32", "src/vita/container/vec.c:vt_vec_seti32", "src/vita/container/vec.c:vt_vec_push_backi32"]}
{"id": "C12", "title": "Any accepted vector size really provides that many slots", "statement": "If vt_vec_create(n, elsize) (or reserve/resize) returns, then all n slots can be pushed to and read without touching memory outside the allocation, for every n and elsize representable in size_t.", "quantifier": "every n and elsize, including those whose product exceeds SIZE_MAX", "why_tests_cant": "The failing inputs need sizes near 2^64/elsize, which no ordinary test allocates.", "anchors": ["src/vita/container/vec.c:vt_vec_create", "src/vita/container/vec.c:vt_vec_reserve", "src/vita/container/vec.c:vt_vec_resize"]}
{"id": "C13", "title": "A pointer list is a sequence of pointers under every operation history", "statement": "After any history of vt_plist_push_back, push_front, insert, set, remove (stable and fast), remove_element, pop, clear, reserve and shrink, vt_plist_len and vt_plist_get report exactly the mathematical list of pointers obtained by the corresponding list operations; in the debug build violated preconditions terminate the program, and the list's buffer is never over- or underrun.", "quantifier": "every initial capacity >= 1, every finite operation history, every pointer value", "why_tests_cant": "Same as for vectors: unbounded histories with growth and index shifts.", "anchors": ["src/vita/container/plist.c:vt_plist_push_back", "src/vita/container/plist.c:vt_plist_insert", "src/vita/container/plist.c:vt_plist_remove", "src/vita/container/plist.c:vt_plist_reserve"]}
{"id": "C14", "title": "Removing a pointer by value removes its first occurrence only", "statement": "vt_plist_remove_element(p, q, STABLE) deletes exactly the first occurrence of q if q occurs, keeping the order of the rest, and otherwise changes nothing; vt_plist_can_find returns the smallest index holding q or -1.", "quantifier": "every list and every pointer, with any number of duplicates", "why_tests_cant": "Quantifies over all lists with all duplicate patterns.", "anchors": ["src/vita/container/plist.c:vt_plist_remove_element", "src/vita/container/plist.c:vt_plist_can_find"]}
{"id": "C15", "title": "A string stays well formed under every editing history", "statement": "After any history of string edits (append, append_n, insert, insert_n, remove, set_at, set_c with a non-NUL character, set_n, clear, reserve, resize, shrink, remove_first, remove_all, remove_c, replace, replace_first, replace_c) on a string created by vt_str_create*, in the debug build: vt_str_z is NUL terminated, vt_str_len equals strlen(vt_str_z), the length is at most the capacity, the buffer holds capacity+1 bytes, and no call reads or writes outside its buffer.", "quantifier": "every initial text, every finite history, all arguments", "why_tests_cant": "The invariant links three pieces of state over unbounded histories; overruns by one byte are invisible to tests.", "anchors": ["src/vita/container/str.c:vt_str_append_n", "src/vita/container/str.c:vt_str_insert_n", "src/vita/container/str.c:vt_str_remove", "src/vita/container/str.c:vt_str_resize", "src/vita/container/str.c:vt_str_shrink", "src/vita/container/str.c:vt_str_reserve"]}
{"id": "C16", "title": "Append, insert and remove edit the text exactly as specified", "statement": "vt_str_append(s,z) makes the text old++z; vt_str_insert(s,z,at) makes it old[0..at)++z++old[at..); vt_str_remove(s,from,n) makes it old without the (at most) n characters starting at from; vt_str_set_at(s,z,at) makes it old[0..at)++z; vt_str_set_n(s,z,n) makes it z[0..n); vt_str_clear makes it empty. Growing preserves the text; capacity after append is the maximum of the old capacity and the new length.", "quantifier": "every text, every inserted text, every position and count allowed by the preconditions", "why_tests_cant": "All lengths relative to capacity (fits, exactly fits, must grow) and all positions.", "anchors": ["src/vita/container/str.c:vt_str_append", "src/vita/container/str.c:vt_str_append_n", "src/vita/container/str.c:vt_str_insert", "src/vita/container/str.c:vt_str_remove", "src/vita/container/str.c:vt_str_set_at", "src/vita/container/str.c:vt_str_set_n"]}
{"id": "C17", "title": "The empty string is an ordinary string value", "statement": "vt_str_create(\"\"), vt_str_dup of an empty string, vt_str_append(s, \"\") and vt_str_set_at(s, \"\", at) succeed and behave as the corresponding operations on the empty text.", "quantifier": "every string s and position", "why_tests_cant": "Edge case shared by many functions, also reached indirectly (join, argument parsing).", "anchors": ["src/vita/container/str.c:vt_str_create", "src/vita/container/str.c:vt_str_create_len", "src/vita/container/str.c:vt_str_dup", "src/vita/container/str.c:vt_str_append", "src/vita/container/str.c:vt_str_append_n"]}
{"id": "C18", "title": "Inserting before or after a substring puts the text at that place", "statement": "If sub occurs in s, vt_str_insert_before(s,z,sub) inserts z immediately before the first occurrence of sub and vt_str_insert_after(s,z,sub) immediately after it; otherwise s is unchanged and a failure status is returned.", "quantifier": "every s, z and non-empty sub, including sub at the very end of s", "why_tests_cant": "The boundary (sub is a suffix of s, sub longer than s) depends on all relative positions.", "anchors": ["src/vita/container/str.c:vt_str_insert_before", "src/vita/container/str.c:vt_str_insert_after", "src/vita/container/str.c:vt_str_find"]}
{"id": "C19", "title": "Removing the first occurrence", "statement": "vt_str_remove_first(s,z) deletes exactly the first occurrence of z if there is one and otherwise leaves s unchanged and reports that nothing was found.", "quantifier": "every s and z with z no longer than s", "why_tests_cant": "Quantifies over all texts with overlapping and repeated occurrences.", "anchors": ["src/vita/container/str.c:vt_str_remove_first"]}
{"id": "C20", "title": "Removing the last occurrence", "statement": "vt_str_remove_last(s,z) deletes exactly the last occurrence of z if there is one and otherwise leaves s unchanged.", "quantifier": "every s and non-empty z", "why_tests_cant": "The only test removes an occurrence at the exact position where the position arithmetic happens to agree.", "anchors": ["src/vita/container/str.c:vt_str_remove_last"]}
{"id": "C21", "title": "Removing all occurrences leaves none", "statement": "vt_str_remove_all(s,z) terminates for every z, and afterwards z does not occur in s; the remaining text is a subsequence of the original, and it is unchanged if z did not occur.", "quantifier": "every s and z", "why_tests_cant": "Deleting one occurrence can create another; absence must hold for all texts, and termination is not testable.", "anchors": ["src/vita/container/str.c:vt_str_remove_all"]}
{"id": "C22", "title": "Removing a set of characters", "statement": "vt_str_remove_c(s,c) leaves exactly the characters of s that do not occur in c, in order.", "quantifier": "every s and every character set c (including the empty one)", "why_tests_cant": "All texts and all character sets.", "anchors": ["src/vita/container/str.c:vt_str_remove_c"]}
{"id": "C23", "title": "Replace-all rewrites every occurrence left to right, once", "statement": "vt_str_replace(s,sub,rsub) with non-empty sub and rsub replaces the non-overlapping occurrences of sub found from left to right by rsub, never rescanning replaced text, whatever the relation between the two lengths; it terminates even when rsub contains sub.", "quantifier": "every s and all non-empty sub, rsub", "why_tests_cant": "Overlaps, self-containing replacements and growth make the input space unbounded.", "anchors": ["src/vita/container/str.c:vt_str_replace"]}
{"id": "C24", "title": "Replacing the first or the last occurrence", "statement": "vt_str_replace_first(s,sub,rsub) rewrites the first occurrence only; vt_str_replace_last(s,sub,rsub) rewrites the last occurrence only; if sub does not occur, s is unchanged.", "quantifier": "every s and all non-empty sub, rsub", "why_tests_cant": "Last-occurrence logic with overlaps and the not-found path depend on all text shapes.", "anchors": ["src/vita/container/str.c:vt_str_replace_first", "src/vita/container/str.c:vt_str_replace_last"]}
{"id": "C25", "title": "Character replacement maps each character independently", "statement": "vt_str_replace_c(s,c,r) with r no longer than c replaces every character of s that occurs in c - first occurrence at index j - by r[j] (or by the last character of r when j is beyond it) and leaves the others; the length is unchanged.", "quantifier": "every s, c, r with length of r at most length of c", "why_tests_cant": "All texts and all translation tables.", "anchors": ["src/vita/container/str.c:vt_str_replace_c"]}
{"id": "C26", "title": "Stripping removes exactly the surrounding characters", "statement": "vt_str_strip (whitespace and control), vt_str_strip_punct (also punctuation) and vt_str_strip_c (a given set) remove the maximal prefix and suffix made of strippable characters and keep the middle unchanged; a text made only of strippable characters becomes empty.", "quantifier": "every text, including empty and fully strippable ones", "why_tests_cant": "Maximality over all texts; the all-blank input corrupts memory rather than failing an assertion.", "anchors": ["src/vita/container/str.c:vt_str_strip", "src/vita/container/str.c:vt_str_strip_punct", "src/vita/container/str.c:vt_str_strip_c"]}
{"id": "C27", "title": "Substring count is the number of non-overlapping occurrences", "statement": "vt_str_can_find(s,sub) returns the number of non-overlapping occurrences of sub in s scanning left to right; it is zero exactly when sub does not occur.", "quantifier": "every s and every non-empty sub no longer than s", "why_tests_cant": "All overlap patterns.", "anchors": ["src/vita/container/str.c:vt_str_can_find"]}
{"id": "C28", "title": "Searching returns the first position", "statement": "vt_str_find / vt_str_index_find return the first position where sub occurs, and NULL / -1 exactly when it does not occur (for any sub, including one longer than s); vt_str_index_of returns the first position of a character or -1.", "quantifier": "every s, sub and character", "why_tests_cant": "First-ness and completeness over all texts.", "anchors": ["src/vita/container/str.c:vt_str_find", "src/vita/container/str.c:vt_str_index_find", "src/vita/container/str.c:vt_str_index_of"]}
{"id": "C29", "title": "Splitting yields the non-empty pieces between separators", "statement": "vt_str_split(ps, s, sep) yields, in order, the non-empty pieces of s between the left-to-right occurrences of sep, and NULL if sep does not occur; s is not modified.", "quantifier": "every s and every non-empty sep, including leading, trailing and repeated separators", "why_tests_cant": "Runs of separators at the end are read past the terminator without a visible failure.", "anchors": ["src/vita/container/str.c:vt_str_split"]}
{"id": "C30", "title": "Joining undoes splitting", "statement": "If a text has no empty pieces around sep (and at least one sep), joining the pieces produced by vt_str_split with vt_str_join(sep) gives the text back; vt_str_join of any list of non-empty texts appends them with sep in between.", "quantifier": "every text and separator satisfying the condition; every list of non-empty texts", "why_tests_cant": "A round trip over all texts.", "anchors": ["src/vita/container/str.c:vt_str_split", "src/vita/container/str.c:vt_str_join", "src/vita/container/str.c:vt_str_join_n"]}
{"id": "C31", "title": "Extracting the text between two markers", "statement": "vt_str_split_between(s,z,zl,zr) returns the text between the first zl and the first zr after it, and NULL if there is no such pair.", "quantifier": "every z, zl, zr", "why_tests_cant": "Depends on the relative positions of all occurrences of both markers.", "anchors": ["src/vita/container/str.c:vt_str_split_between"]}
{"id": "C32", "title": "Popping the first or last field splits at that separator", "statement": "If sep occurs in s at a position > 0, vt_str_pop_get_first(sr,s,sep) returns the text before the first sep and leaves in s the text after it; vt_str_pop_get_last returns the text after the last sep and leaves the text before it; in each case returned and remaining text joined by sep give the original.", "quantifier": "every s and every non-empty sep", "why_tests_cant": "All positions and overlaps of the separator.", "anchors": ["src/vita/container/str.c:vt_str_pop_get_first", "src/vita/container/str.c:vt_str_pop_get_last"]}
{"id": "C33", "title": "String comparison is exact", "statement": "vt_str_equals, vt_str_equals_z and vt_str_equals_n return true exactly when the (prefixes of the) texts are identical; vt_str_starts_with / vt_str_ends_with return true exactly when the second text is a prefix / suffix of the first.", "quantifier": "every pair of texts", "why_tests_cant": "All pairs of texts, including different lengths and shared prefixes.", "anchors": ["src/vita/container/str.c:vt_str_equals", "src/vita/container/str.c:vt_str_equals_z", "src/vita/container/str.c:vt_str_equals_n", "src/vita/container/str.c:vt_str_starts_with", "src/vita/container/str.c:vt_str_ends_with"]}
{"id": "C34", "title": "Numeric check and case conversion are per-character", "statement": "vt_str_is_numeric is true exactly for texts of digits and dots; vt_str_to_upper / vt_str_to_lower change exactly the ASCII letters of the other case, keep the length, and are idempotent.", "quantifier": "every text", "why_tests_cant": "All texts over all byte values.", "anchors": ["src/vita/container/str.c:vt_str_is_numeric", "src/vita/container/str.c:vt_str_to_uppercase", "src/vita/container/str.c:vt_str_to_lowercase"]}
{"id": "C35", "title": "Read-only string views are never written through", "statement": "Every mutating call on a string made by vt_str_create_static is rejected: it terminates the program and never modifies the viewed memory.", "quantifier": "every view and every mutating string function", "why_tests_cant": "The memory viewed is usually a literal; a write may crash, corrupt or go unnoticed depending on sizes.", "anchors": ["src/vita/container/str.c:vt_str_create_static", "src/vita/container/str.c:vt_str_append_n", "src/vita/container/str.c:vt_str_resize", "src/vita/container/str.c:vt_str_reserve", "src/vita/container/str.c:vt_str_shrink"]}
{"id": "C36", "title": "Formatted append and insert handle every output length", "statement": "vt_str_appendf / vt_str_insertf append / insert exactly the text produced by the formatter, for every output length, in particular on both sides of the internal fixed buffer size, and keep the string well formed.", "quantifier": "every formatted text length", "why_tests_cant": "The switch from fixed to heap buffer occurs at one length; both sides and all capacities matter.", "anchors": ["src/vita/container/str.c:vt_str_appendf", "src/vita/container/str.c:vt_str_insertf"]}
{"id": "C37", "title": "A span is a window onto the underlying memory", "statement": "vt_span_from_to(p, from, to, elsize) is a window of length to-from: its i-th element is the (from+i)-th element of the underlying array, a vt_span_set(i) is visible in exactly that element of the array and nowhere else, and in the debug build indices outside the window terminate the program; every from <= to is accepted.", "quantifier": "every array, every window, every index and value", "why_tests_cant": "All windows, offsets and element sizes; includes the window starting at 0 and an inverted window.", "anchors": ["src/vita/container/span.c:vt_span_from_to", "src/vita/container/span.c:vt_span_get", "src/vita/container/span.c:vt_span_set"]}
{"id": "C38", "title": "Allocator statistics equal the real outstanding memory", "statement": "After any history of VT_ALLOCATOR_ALLOC/REALLOC/FREE calls on one allocator (requests of at least one byte, with pointers obtained from it and not yet freed), the recorded number of outstanding bytes is the sum of the sizes of the live blocks, the number of tracked objects is the number of live blocks, and allocs - frees equals that number; the bytes freed counter equals all bytes ever released.", "quantifier": "every finite history and every order of frees, across growth of the tracking table", "why_tests_cant": "Bookkeeping is spread over counters and a table that is swapped and resized; only induction over histories settles it.", "anchors": ["src/vita/allocator/mallocator.c:vt_mallocator_alloc", "src/vita/allocator/mallocator.c:vt_mallocator_realloc", "src/vita/allocator/mallocator.c:vt_mallocator_free"]}
{"id": "C39", "title": "Destroying an allocator frees every live block exactly once", "statement": "vt_mallocator_destroy releases each block that was allocated from it and not yet freed exactly once, and releases no other block: no leak and no double free in any history.", "quantifier": "every allocation history", "why_tests_cant": "Double frees and leaks depend on the whole history of table swaps.", "anchors": ["src/vita/allocator/mallocator.c:vt_mallocator_destroy", "src/vita/allocator/mallocator.c:vt_mallocator_obj_list_remove"]}
{"id": "C40", "title": "Index conversions are mutually inverse", "statement": "For column < ncols, vt_index_1d_to_2d inverts vt_index_2d_to_1d; for row < nrows and column < ncols, vt_index_1d_to_3d inverts vt_index_3d_to_1d; conversely converting any 1d index and back yields the index; distinct coordinates map to distinct indices.", "quantifier": "every coordinate and dimension whose flattened index fits into size_t", "why_tests_cant": "A bijection over unbounded ranges.", "anchors": ["src/vita/container/common.c:vt_index_2d_to_1d", "src/vita/container/common.c:vt_index_1d_to_2d", "src/vita/container/common.c:vt_index_3d_to_1d", "src/vita/container/common.c:vt_index_1d_to_3d"]}
{"id": "C41", "title": "Minimum, maximum and clamp", "statement": "vt_cmp_min/max return one of their arguments and it is a lower/upper bound of both; vt_cmp_clamp(x,l,h) with l <= h returns the value of [l,h] closest to x, is idempotent and monotone.", "quantifier": "all values of each integer type", "why_tests_cant": "All triples of 64-bit values.", "anchors": ["src/vita/algorithm/comparison.c:vt_cmp_clampi32", "src/vita/algorithm/comparison.c:vt_cmp_mini32"]}
{"id": "C42", "title": "gcd and lcm are correct", "statement": "For positive a and b, vt_math_gcd(a,b) is the greatest common divisor, the computation terminates, and vt_math_lcm(a,b) is the least common multiple whenever that fits the type.", "quantifier": "all positive 64-bit a, b", "why_tests_cant": "Termination and maximality over all pairs.", "anchors": ["src/vita/math/math.c:vt_math_gcd", "src/vita/math/math.c:vt_math_lcm"]}
{"id": "C43", "title": "gcd is total", "statement": "vt_math_gcd(a,b) returns a value for every pair of arguments, with gcd(a,0)=a.", "quantifier": "all 64-bit a, b, including 0 and negative values", "why_tests_cant": "The undefined cases are isolated points among 2^128 inputs.", "anchors": ["src/vita/math/math.c:vt_math_gcd"]}
{"id": "C44", "title": "Palindrome test is exact in spite of overflow", "statement": "vt_math_is_palindrome(n) returns true exactly when the decimal digits of n read the same backwards, although the reversed number may overflow 64 bits.", "quantifier": "all 2^64 values", "why_tests_cant": "A false positive would need a wrap-around coincidence among 2^64 inputs.", "anchors": ["src/vita/math/math.c:vt_math_is_palindrome"]}
{"id": "C45", "title": "The random generator stays in its documented range", "statement": "vt_math_random_u64 and the ranged variants return values inside the range the documentation gives, for every seed and every position in the sequence.", "quantifier": "every initial clock value and every number of calls", "why_tests_cant": "Quantifies over all generator states.", "anchors": ["src/vita/math/math.c:vt_math_random_u64", "src/vita/math/math.c:vt_math_random_f32"]}
{"id": "C46", "title": "Unsigned integers survive conversion to text and back", "statement": "Converting any unsigned value to decimal text and the text back to the same type yields the value; the buffer written holds the canonical decimal numeral and a terminator.", "quantifier": "every value of every unsigned type and every sufficiently large buffer", "why_tests_cant": "2^64 values.", "anchors": ["src/vita/core/conv.c:vt_conv_u64_to_str", "src/vita/core/conv.c:vt_conv_str_to_u64"]}
{"id": "C47", "title": "Signed integers survive conversion to text and back", "statement": "Converting any signed value to decimal text and the text back to the same type yields the value.", "quantifier": "every value of every signed type, including negative ones", "why_tests_cant": "Half of all values, never exercised by the tests.", "anchors": ["src/vita/core/conv.c:vt_conv_i64_to_str", "src/vita/core/conv.c:vt_conv_str_to_i64", "src/vita/container/str.c:vt_str_is_numeric_z"]}
{"id": "C48", "title": "Text that is not a number converts to zero", "statement": "vt_conv_str_to_T returns 0 for every text containing a character other than a digit or dot, and for a digit string within range returns the number it denotes; digits after the first dot are ignored.", "quantifier": "every text", "why_tests_cant": "All texts.", "anchors": ["src/vita/core/conv.c:vt_conv_str_to_i32", "src/vita/container/str.c:vt_str_is_numeric_z"]}
{"id": "C49", "title": "Seconds and calendar time are inverse", "statement": "In a time zone with a fixed offset, vt_datetime_from_secs(vt_datetime_to_secs(d)) gives back the date and time of day of every valid d, vt_datetime_to_secs is strictly increasing in chronological order, and week day and day of year are filled in correctly.", "quantifier": "every valid date/time from 1970 on whose fields fit the struct", "why_tests_cant": "All dates across leap years and centuries.", "anchors": ["src/vita/time/datetime.c:vt_datetime_to_secs", "src/vita/time/datetime.c:vt_datetime_from_secs"]}
{"id": "C50", "title": "Leap years follow the Gregorian calendar", "statement": "vt_datetime_is_leap_year is true exactly for Gregorian leap years, vt_datetime_find_days_in_year is 366 exactly for those, and vt_datetime_find_days_in_month gives the Gregorian month lengths.", "quantifier": "every year and month", "why_tests_cant": "Wrong only in century years, which the test does not sample.", "anchors": ["src/vita/time/datetime.c:vt_datetime_is_leap_year", "src/vita/time/datetime.c:vt_datetime_find_days_in_month"]}
{"id": "C51", "title": "Creating a datetime normalises every field", "statement": "vt_datetime_create returns, for arbitrary input fields, a datetime whose month is 1..12, month_day 1..31, hour 0..23, minute 0..59, second 0..60, week_day 1..7 and year_day 1..366, and keeps fields already in range.", "quantifier": "all values of all eight 16-bit fields", "why_tests_cant": "2^128 inputs.", "anchors": ["src/vita/time/datetime.c:vt_datetime_create"]}
{"id": "C52", "title": "Time differences agree between units", "statement": "vt_datetime_diff_minutes/hours/days equal vt_datetime_diff_secs divided by 60/3600/86400 rounded toward zero, differences are antisymmetric, and adding the seconds difference to the earlier time gives the later one.", "quantifier": "every pair of datetimes", "why_tests_cant": "All pairs of times, both signs.", "anchors": ["src/vita/time/datetime.c:vt_datetime_diff_days", "src/vita/time/datetime.c:vt_datetime_diff_secs"]}
{"id": "C53", "title": "Date text round-trips", "statement": "Formatting a datetime with vt_datetime_to_text (any of the numeric ISO formats) and parsing the text with the matching from_text function yields the same year, month, day, hour, minute and second.", "quantifier": "every valid datetime with a four-digit year and every supported format", "why_tests_cant": "All dates times all formats.", "anchors": ["src/vita/time/datetime.c:vt_datetime_to_text", "src/vita/time/datetime.c:vt_datetime_from_text"]}
{"id": "C54", "title": "Date text validation accepts only the format", "statement": "vt_datetime_is_valid_text, _text_iso and _text_iso_ext return true only for texts of the exact format (digits and separators in place) and never reads beyond the text's terminator.", "quantifier": "every text", "why_tests_cant": "All texts, including ones that end early at each position.", "anchors": ["src/vita/time/datetime.c:vt_datetime_is_valid_text", "src/vita/time/datetime.c:vt_datetime_is_valid_text_iso", "src/vita/time/datetime.c:vt_datetime_is_valid_text_iso_ext"]}
{"id": "C55", "title": "Argument parsing assigns exactly the options given", "statement": "For argv made of option=value, option value and flag arguments with recognised options, vt_argopt_parse succeeds and afterwards each option holds the conversion of the last value given for it (\"1\" for a bare flag) while options not mentioned keep their previous value.", "quantifier": "every option table, every argument list of recognised options", "why_tests_cant": "All argument lists of all lengths and orders.", "anchors": ["src/vita/util/argopt.c:vt_argopt_parse", "src/vita/util/argopt.c:vt_argopt_assign_value"]}
{"id": "C56", "title": "Unrecognised arguments stop parsing with an error", "statement": "vt_argopt_parse returns the error status exactly when some argument is not an option (or value of an option) in the table or the table itself is invalid; options assigned before the offending argument keep the new value and no later argument has any effect.", "quantifier": "every option table and argument list", "why_tests_cant": "Position and mix of valid and invalid arguments is unbounded.", "anchors": ["src/vita/util/argopt.c:vt_argopt_parse", "src/vita/util/argopt.c:vt_argopt_validate"]}
{"id": "C57", "title": "Re-assigning a C-string option stores the whole text safely", "statement": "When a char* option already holds a heap string, parsing a new value replaces it by a NUL-terminated copy of the new value without writing outside the allocation.", "quantifier": "every old and new value", "why_tests_cant": "The overflow depends on the two lengths; heap overruns rarely fail visibly.", "anchors": ["src/vita/util/argopt.c:vt_argopt_assign_value"]}
{"id": "C58", "title": "Popping a path segment removes exactly the last one", "statement": "vt_path_pop truncates a path at its last separator (dropping that separator and everything after it), only drops a single trailing separator if the path ends with one, and leaves a path without separator unchanged; it never touches memory outside the text.", "quantifier": "every path text, including the empty one", "why_tests_cant": "All texts.", "anchors": ["src/vita/system/path.c:vt_path_pop"]}
{"id": "C59", "title": "Basename is the text after the last separator", "statement": "vt_path_basename returns the text after the last path separator, or the whole path if there is none.", "quantifier": "every path text, including absolute single-segment paths and trailing separators", "why_tests_cant": "All texts; the test uses one relative path.", "anchors": ["src/vita/system/path.c:vt_path_basename"]}
{"id": "C60", "title": "Path building, validation and tilde expansion", "statement": "vt_path_build joins segments with single separators; vt_path_validate replaces every foreign separator and nothing else; vt_path_expand_tilda replaces a leading ~ by the home directory and leaves the remaining text unchanged.", "quantifier": "every list of segments and every path text, including \"~\" alone", "why_tests_cant": "All texts and list lengths.", "anchors": ["src/vita/system/path.c:vt_path_build_n", "src/vita/system/path.c:vt_path_validate", "src/vita/system/path.c:vt_path_expand_tilda"]}
{"id": "C61", "title": "Making a directory with parents creates the whole chain", "statement": "If vt_path_mkdir_parents(path) returns true, the directory path exists afterwards; and it succeeds whenever every missing prefix can be created.", "quantifier": "every file-system state and every path", "why_tests_cant": "All directory trees and paths, and failures at each level.", "anchors": ["src/vita/system/path.c:vt_path_mkdir_parents"]}
{"id": "C62", "title": "Recursive directory listing is complete", "statement": "vt_path_dir_list returns the names of exactly the entries of a directory other than . and .. (and hidden ones if excluded); vt_path_dir_list_recurse returns every entry below the directory exactly once, each directory after its contents.", "quantifier": "every finite directory tree without symbolic links whose directories can all be opened and whose path texts fit PATH_MAX", "why_tests_cant": "All trees of all depths.", "anchors": ["src/vita/system/path.c:vt_path_dir_list", "src/vita/system/path.c:vt_path_dir_list_recurse"]}
{"id": "C63", "title": "Recursive removal deletes the subtree and nothing else", "statement": "vt_path_rmdir_recurse(path) removes the directory and everything below it, and leaves every file and directory outside it untouched.", "quantifier": "every finite directory tree", "why_tests_cant": "All trees.", "anchors": ["src/vita/system/path.c:vt_path_rmdir_recurse"]}
{"id": "C64", "title": "Reading returns what was written", "statement": "After vt_file_write(f, text) succeeds, vt_file_read(f) returns exactly text, and after further vt_file_append calls it returns the concatenation; the ln variants add one newline per call; other files are unaffected.", "quantifier": "every history of writes and appends to any files, every text", "why_tests_cant": "Histories of any length over any number of files.", "anchors": ["src/vita/system/fileio.c:vt_file_write", "src/vita/system/fileio.c:vt_file_append", "src/vita/system/fileio.c:vt_file_read"]}
{"id": "C65", "title": "Reading into a buffer never overruns it", "statement": "vt_file_read_to_buffer(f, buf, n) writes exactly the first min(n, file size) bytes of the file to buf and touches no byte beyond them.", "quantifier": "every file content and buffer size", "why_tests_cant": "All sizes on both sides of the buffer size.", "anchors": ["src/vita/system/fileio.c:vt_file_read_to_buffer"]}
{"id": "C66", "title": "Log messages are emitted exactly when the checked condition fails", "statement": "A log call writes one line to its target exactly when its condition is false; fatal and failed assertion messages terminate the program, all others never do; redirecting one level affects that level only.", "quantifier": "every sequence of redirect and log calls", "why_tests_cant": "Interleavings of redirections and levels.", "anchors": ["src/vita/util/log.c:vt_log", "src/vita/util/log.c:vt_log_redirect_level"]}
{"id": "C67", "title": "Every socket failure is reported as such", "statement": "vt_socket_startup_server/client return a usable descriptor exactly when every underlying system call succeeded, and otherwise an error status that identifies the failed step and no descriptor stays open.", "quantifier": "every combination of system-call outcomes", "why_tests_cant": "Failures of individual system calls cannot be provoked in a unit test.", "anchors": ["src/vita/network/sockets.c:vt_socket_startup_server", "src/vita/network/sockets.c:vt_socket_startup_client"]}
{"id": "C68", "title": "Swapping exchanges two values", "statement": "vt_gswap(a,b,n) exchanges the n bytes at a and b and changes nothing else, and swapping twice restores the memory; vt_memcmp is true exactly when the compared bytes are equal.", "quantifier": "every pair of disjoint memory areas and every size, including 0", "why_tests_cant": "All sizes and contents.", "anchors": ["src/vita/core/core.c:vt_gswap", "src/vita/core/core.c:vt_memcmp", "src/vita/core/core.c:vt_pswap"]}
{"id": "C69", "title": "Every status code has its own name", "statement": "vt_status_to_str returns a distinct non-NULL name for every status code below the count and NULL for every other value.", "quantifier": "every value of the enum's underlying type", "why_tests_cant": "Includes values outside the enumeration.", "anchors": ["src/vita/core/core.c:vt_status_to_str"]}
{"id": "C70", "title": "Linear mapping sends interval to interval", "statement": "vt_math_map_to(x,a,b,c,d) with a < b and c <= d sends a to c, b to d and every x of [a,b] into [c,d], is monotone in x, and mapping back with the intervals exchanged returns x.", "quantifier": "all intervals and all x", "why_tests_cant": "A continuum of intervals.", "anchors": ["src/vita/math/math.c:vt_math_map_to"]}
{"id": "C71", "title": "Closeness follows its documentation", "statement": "vt_math_is_close(x,y,t) is symmetric in x and y, for t >= 0 it is true exactly when |x-y| < t, and for t < 0 the machine epsilon is used as tolerance, as the header says.", "quantifier": "all x, y and tolerances, including negative ones", "why_tests_cant": "A continuum of values.", "anchors": ["src/vita/math/math.c:vt_math_is_close", "inc/vita/math/math.h:vt_math_is_close"]}
{"id": "C72", "title": "Pretty date text has the documented form", "statement": "vt_datetime_to_text_pretty writes exactly \"Www Mmm dd hh:mm:ss yyyy\" (English week day and month, blank-padded day) and its terminator, and never writes outside a buffer of the required 26 bytes.", "quantifier": "every datetime with fields in range and a year from 1000 to 9999, every buffer of at least 26 bytes, also uninitialised", "why_tests_cant": "All dates times all prior buffer contents; the line end is removed by position.", "anchors": ["src/vita/time/datetime.c:vt_datetime_to_text_pretty"]}
{"id": "C73", "title": "Help is reported exactly when it is the only request", "statement": "vt_argopt_parse returns 1 exactly when the only argument after the program name is -h, --help or begins with a question mark; no option is changed then.", "quantifier": "every valid option table and every argument list", "why_tests_cant": "All argument lists, including help in other positions and as a value.", "anchors": ["src/vita/util/argopt.c:vt_argopt_parse"]}
{"id": "C74", "title": "The manual is one aligned line for each option", "statement": "vt_argopt_print_help prints the header, one line for each option in table order, a line for help and the footer; names are aligned right in columns just wide enough for all of them, so that all descriptions begin in the same column.", "quantifier": "every non-empty option table with names shorter than 2^31, with or without header and footer", "why_tests_cant": "All tables and name lengths; the printed output is not tested.", "anchors": ["src/vita/util/argopt.c:vt_argopt_print_help"]}
{"id": "C75", "title": "Locations are reported as the system knows them", "statement": "vt_path_get_cwd returns a string whose text is the working directory, and vt_path_get_this_exe_location one whose text is the path of the running executable.", "quantifier": "every working directory and every executable path of at most PATH_MAX bytes", "why_tests_cant": "A test sees one location; a missing terminator shows only past the length that is stored separately.", "anchors": ["src/vita/system/path.c:vt_path_get_cwd", "src/vita/system/path.c:vt_path_get_this_exe_location"]}
{"id": "C76", "title": "Failed checks report once and quit as declared", "statement": "A failed vt_debug check writes one line with subject, expression, place and message to the file chosen last or to stderr, unless output is switched off, and terminates the program exactly when the check asks for it; a check that holds has no effect.", "quantifier": "every sequence of redirect, disable, check and print calls", "why_tests_cant": "Interleavings of the two settings with checks; terminating checks end the test itself.", "anchors": ["src/vita/util/debug.c:vt_debug_assert", "src/vita/util/debug.c:vt_debug_redirect_output", "src/vita/util/debug.c:vt_debug_disable_output"]}
{"id": "C77", "title": "Transfers report what was transferred", "statement": "The send and receive functions return the number of bytes the system transferred, which are the first bytes of the buffer, or the status of the failed step; the rest of the buffer and, unless something was received, the address are unchanged; the timed variants receive only after poll reported data.", "quantifier": "every outcome of poll, send and receive, every buffer", "why_tests_cant": "Short transfers and failures of individual system calls cannot be provoked in a unit test.", "anchors": ["src/vita/network/sockets.c:vt_socket_send", "src/vita/network/sockets.c:vt_socket_receive", "src/vita/network/sockets.c:vt_socket_receive_timed"]}
{"id": "C78", "title": "The fast square roots are accurate", "statement": "vt_math_sqrt_carmack(v) and vt_math_isqrt_carmack(v) return a finite number whose relative error against the square root and the inverse square root of v is at most one millionth.", "quantifier": "every positive float, with IEEE rounding after each operation", "why_tests_cant": "Two billion inputs for each function, and an error bound that no sampling establishes; the guess from the bits has three regimes.", "anchors": ["src/vita/math/math.c:vt_math_sqrt_carmack", "src/vita/math/math.c:vt_math_isqrt_carmack"]}
{"id": "C79", "title": "A vector's own element can be its next element", "statement": "vt_vec_push_back, vt_vec_push_front, vt_vec_insert and vt_vec_set called with the pointer that vt_vec_get returned for an element of the same vector act as if the element had been copied out first.", "quantifier": "every vector, every element and every position", "why_tests_cant": "Whether the call reallocates depends on the history of the vector, and the freed block usually still holds the old bytes.", "anchors": ["src/vita/container/vec.c:vt_vec_push_back", "src/vita/container/vec.c:vt_vec_insert", "src/vita/container/vec.c:vt_vec_set"]}
{"id": "C80", "title": "A string's own text can be its argument", "statement": "vt_str_append, vt_str_insert, vt_str_set and vt_str_set_at called with a pointer into the text of the same string act as if that text had been copied out first.", "quantifier": "every string, every position in its text and every insertion point", "why_tests_cant": "Overlap of source and destination depends on three positions and the spare capacity.", "anchors": ["src/vita/container/str.c:vt_str_append_n", "src/vita/container/str.c:vt_str_insert", "src/vita/container/str.c:vt_str_set_n", "src/vita/container/str.c:vt_str_set_at"]}
{"id": "C81", "title": "The difference of two dates has the right fields", "statement": "The days, hours, minutes and seconds that vt_datetime_diff returns are within their ranges and add up to the number of seconds between the two dates, so that adding the result to the second date gives the first.", "quantifier": "every two dates", "why_tests_cant": "The fields are computed in float arithmetic; whether a second is lost depends on the rounding of each of five operations.", "anchors": ["src/vita/time/datetime.c:vt_datetime_diff", "src/vita/time/datetime.c:vt_datetime_diff_secs"]}
{"id": "C82", "title": "A release build does what the debug build did", "statement": "Every function has the same outcome (result, new contents, termination) in a debug and in a release build, except that the debug build may terminate by a failed debug check; so any history of calls that a debug build completes gives the same contents in a release build, and the sequence and text specifications hold there too.", "quantifier": "every function, every argument, every history of calls, every pattern of refused memory requests", "why_tests_cant": "A check with a side effect, or code that relies on a check, shows only in builds that are usually not tested, for histories that are not in the test suite.", "anchors": ["inc/vita/util/debug.h:VT_DEBUG_ASSERT", "src/vita/container/vec.c", "src/vita/container/plist.c", "src/vita/container/str.c", "src/vita/util/argopt.c", "src/vita/system/path.c"]}
{"id": "C83", "title": "Applying a callback visits every element once, in order, with its index", "statement": "vt_vec_apply, vt_str_apply and vt_plist_apply call the function exactly once for each element, from the first to the last, with the element's index; afterwards the elements are exactly what the function made of them, and length and capacity are unchanged.", "quantifier": "every container and every callback (with any state of its own) that reads and writes only the element it is given, and writes no NUL into a string", "why_tests_cant": "Quantifies over all callbacks, containers and element sizes; a wrong last index or stride shows only for some of them.", "anchors": ["src/vita/container/vec.c:vt_vec_apply", "src/vita/container/str.c:vt_str_apply", "src/vita/container/plist.c:vt_plist_apply"]}
{"id": "C84", "title": "The space a container reports can be used without allocating", "statement": "The length, capacity, free space and emptiness that a vector, pointer list or string reports are those of its contents (length + free space = capacity); and that many values can be appended, or a text of that length appended or inserted, without any request for memory and without changing the capacity.", "quantifier": "every container that satisfies its invariant, every list of values that fits the reported space, every pattern of refused memory requests", "why_tests_cant": "Tests append to a few containers with memory available; that no request is made can only be seen when each is refused, and an off-by-one between reported and usable space shows only at the boundary of each capacity.", "anchors": ["src/vita/container/common.c:vt_array_has_space", "src/vita/container/vec.c:vt_vec_has_space", "src/vita/container/vec.c:vt_vec_push_back", "src/vita/container/plist.c:vt_plist_has_space", "src/vita/container/plist.c:vt_plist_push_back", "src/vita/container/str.c:vt_str_has_space", "src/vita/container/str.c:vt_str_append_n", "src/vita/container/str.c:vt_str_insert"]}
{"id": "C85", "title": "vt_str_validate_len restores the invariant after a foreign write", "statement": "When other code has written any bytes into the memory of a string up to its capacity, vt_str_validate_len makes it a proper string again: the text is what was written up to the first NUL, or the whole capacity if there is none, it is terminated inside the allocation, and its length is returned; a string nobody has written into is not changed.", "quantifier": "every owned string and every content of its memory", "why_tests_cant": "The written bytes are arbitrary, with and without NUL; the case of a completely filled capacity needs the terminator in the very last byte.", "anchors": ["src/vita/container/str.c:vt_str_validate_len"]}
{"id": "C86", "title": "A single file-system call changes exactly what it names, and reports it truthfully", "statement": "vt_path_exists, vt_path_is_dir, vt_path_is_file and vt_path_get_file_size agree with each other; when vt_path_mkdir, vt_path_rmdir, vt_path_remove or vt_path_rename returns false nothing has changed, and when it returns true exactly the named entry has been created, removed or moved with everything below it, and everything else is as before.", "quantifier": "every directory tree with files and links, every pattern of permissions, every path text", "why_tests_cant": "Quantifies over all trees, links and permission patterns; a stray effect on an entry that was not named is outside what a test looks at.", "anchors": ["src/vita/system/path.c:vt_path_exists", "src/vita/system/path.c:vt_path_is_dir", "src/vita/system/path.c:vt_path_is_file", "src/vita/system/path.c:vt_path_get_file_size", "src/vita/system/path.c:vt_path_mkdir", "src/vita/system/path.c:vt_path_rmdir", "src/vita/system/path.c:vt_path_remove", "src/vita/system/path.c:vt_path_rename"]}
{"id": "C87", "title": "Containers own exactly their memory", "statement": "In every program that creates, edits, copies and destroys vectors, pointer lists and strings, on the system heap or in a tracking allocator, the memory held at any time is exactly the header and the buffer of each live container, no block is freed twice or used after it was freed, temporary blocks are given back by the call that requested them, the tracking allocator records exactly the blocks of its containers, and after all containers are destroyed the heap is as before.", "quantifier": "every program of container calls, every choice of addresses by the C library, every pattern of refused memory requests", "why_tests_cant": "Leaks and double frees need particular interleavings of growth, copying and destruction over several containers and two allocators; a test sees only the programs it runs.", "anchors": ["src/vita/container/common.c:vt_array_new", "src/vita/container/common.c:vt_array_free", "src/vita/container/vec.c:vt_vec_destroy", "src/vita/container/plist.c:vt_plist_destroy", "src/vita/container/str.c:vt_str_destroy", "src/vita/container/str.c:vt_str_insertf", "src/vita/allocator/mallocator.c:vt_mallocator_realloc", "src/vita/allocator/mallocator.c:vt_mallocator_free"]}
{"id": "C88", "title": "Functions that create containers hand them over and keep nothing", "statement": "vt_str_split, vt_path_dir_list and vt_path_dir_list_recurse leave one list and one new string per entry, or nothing if they return NULL; vt_path_dir_free then releases the list and all its strings; vt_str_join, vt_path_build, vt_path_build_n, vt_file_read and the pop-get functions leave at most the string they return; vt_path_mkdir_parents and vt_path_rmdir_recurse leave nothing; the result is the same as without any bookkeeping, no container is destroyed twice or used after it was destroyed, and no other container changes.", "quantifier": "every state of a program with any containers on the system heap and in a tracking allocator, every text, every directory tree, every pattern of refused memory requests", "why_tests_cant": "Temporary strings and lists are created and destroyed at every level of a recursion over an arbitrary tree; a leak on one early exit or for one shape of the tree does not change any result a test looks at.", "anchors": ["src/vita/container/str.c:vt_str_split", "src/vita/container/str.c:vt_str_join", "src/vita/container/str.c:vt_str_pop_get_first", "src/vita/container/str.c:vt_str_pop_get_last", "src/vita/system/path.c:vt_path_dir_list", "src/vita/system/path.c:vt_path_dir_list_recurse", "src/vita/system/path.c:vt_path_dir_free", "src/vita/system/path.c:vt_path_mkdir_parents", "src/vita/system/path.c:vt_path_rmdir_recurse", "src/vita/system/path.c:vt_path_build_n", "src/vita/system/fileio.c:vt_file_read"]}
{"id": "C89", "title": "The current time is the time of the clock", "statement": "vt_datetime_get_now returns the date and time of day that clocks in the time zone show at the moment given by the system clock, with the right week day and day of the year, and vt_datetime_get_now_as_text and vt_datetime_get_now_as_text_pretty write exactly this date in the documented formats with a terminator and nothing outside the buffer.", "quantifier": "every value of the clock in the years 1000 to 9999, every time zone with or without summer time, every buffer of at least 26 bytes, also uninitialised", "why_tests_cant": "The value of the clock is not under the control of a test, and wrong dates appear only on particular days such as leap days and year ends.", "anchors": ["src/vita/time/datetime.c:vt_datetime_get_now", "src/vita/time/datetime.c:vt_datetime_get_now_as_text", "src/vita/time/datetime.c:vt_datetime_get_now_as_text_pretty"]}
{"id": "C90", "title": "Floating point numbers are written with six decimals and read as the nearest number", "statement": "vt_conv_f_to_str, vt_conv_d_to_str and vt_conv_r_to_str write the value rounded to the nearest number with six decimals (ties to an even last digit), a minus sign if it is negative, or inf / nan, with a terminator and without touching the rest of the buffer, and terminate the program if the buffer is too short. vt_conv_str_to_f, _d and _r return, for digits with an optional dot and more digits, the number of the type nearest to the denoted one (infinity if it is too large), and 0 for a text with any character other than digits and dots.", "quantifier": "float, double and long double; every value including infinities, NaN and subnormal numbers; every buffer size; every text of any length", "why_tests_cant": "There are 2^32 to 2^80 values and infinitely many texts; wrong rounding or a buffer one byte too small shows only for particular ones.", "anchors": ["src/vita/core/conv.c:vt_conv_f_to_str", "src/vita/core/conv.c:vt_conv_d_to_str", "src/vita/core/conv.c:vt_conv_r_to_str", "src/vita/core/conv.c:vt_conv_str_to_f", "src/vita/core/conv.c:vt_conv_str_to_d", "src/vita/core/conv.c:vt_conv_str_to_r"]}
{"id": "C91", "title": "Floating point numbers survive the conversion to text and back to within a millionth", "statement": "Converting a finite value to text and back yields a finite value that differs from it by at most 1/1000000; it is the same value exactly if the value is the nearest number of its type to some number with six decimals, in particular for all multiples of 1/64 and all large values; the order of two values is never reversed.", "quantifier": "float, double and long double; every finite value of the type", "why_tests_cant": "Whether a particular value survives depends on two roundings; no set of sample values shows the bound or the exact set of survivors for all of them.", "anchors": ["src/vita/core/conv.c:vt_conv_f_to_str", "src/vita/core/conv.c:vt_conv_d_to_str", "src/vita/core/conv.c:vt_conv_r_to_str", "src/vita/core/conv.c:vt_conv_str_to_f", "src/vita/core/conv.c:vt_conv_str_to_d", "src/vita/core/conv.c:vt_conv_str_to_r"]}
{"id": "C92", "title": "The printed statistics account for every byte ever handed out", "statement": "After any history of calls, vt_mallocator_print_stats prints one table of sixteen lines whose rows show the numbers of allocations, reallocations and releases, the bytes of the live blocks, the bytes given back (by releasing and by shrinking), and as the total exactly the bytes ever handed out (the sizes of all new blocks plus what blocks grew by). Numbers are right-aligned in ten columns, so all lines have the same width unless a number has more digits; two different statistics never print the same table.", "quantifier": "every finite history of create, alloc, realloc and free, interleaved with other users of the heap; the counters are modulo 2^64", "why_tests_cant": "The total is not stored anywhere: that current plus freed equals all bytes handed out is an invariant over all histories of growing and shrinking blocks.", "anchors": ["src/vita/allocator/mallocator.c:vt_mallocator_print_stats", "src/vita/allocator/mallocator.c:vt_mallocator_realloc", "src/vita/allocator/mallocator.c:vt_mallocator_free"]}
{"id": "C93", "title": "Parsing arguments creates strings only for the options that need one and leaves no working strings", "statement": "However vt_argopt_parse ends (success, unknown option, defective table, help), the working strings it created are destroyed; an option of string type whose pointer was NULL and that was given has exactly one new string made with the allocator passed, an existing string is reused and keeps its allocator, and every other container is untouched. A caller that starts with NULL pointers and destroys the strings its options point to afterwards has no new block on the heap. The values are those that parsing gives without regard to memory.", "quantifier": "all argument vectors, option tables whose string pointers are NULL or point to different live strings, both allocators, every state of the heap a program can reach", "why_tests_cant": "The number of temporaries alive and the reuse of strings depend on the whole argument vector (repeated options, the place of the first unknown one) and on the state of the heap.", "anchors": ["src/vita/util/argopt.c:vt_argopt_parse", "src/vita/util/argopt.c:vt_argopt_assign_value"]}
{"id": "C94", "title": "Normally distributed random numbers follow the polar method", "statement": "A call of vt_math_random_f32_normal that finds no stored deviate draws pairs of numbers from the generator, passes over those whose squares do not have a sum strictly between 0 and 1, and makes two deviates U * sqrt(-2 ln W / W) out of the first pair accepted (relative error at most 2^-20); it returns the first one times std plus mu and stores the second one, which the next call uses with its own mu and std without drawing. Over any sequence of calls no result is further than 8.25 std from mu (up to the rounding of the two last operations), every result is finite unless the parameters are enormous, and with std = 0 the result is mu.", "quantifier": "every sequence of calls from the start of the program that return, all float parameters, all states of the generator and values of the clock, every C library whose sin, pow, log and sqrt are accurate to 2^-50", "why_tests_cant": "The result depends on the hidden state of two functions and the clock; a bound on all results holds over all pairs that could be drawn, and large deviates are so rare that sampling does not meet them.", "anchors": ["src/vita/math/math.c:vt_math_random_f32_normal"]}
{"id": "C95", "title": "The random numbers repeat after exactly 65536 calls, except in rare seconds", "statement": "From the second number on (for clock values of the next two million years from the first one), the numbers of vt_math_random_u64 repeat after 65536 calls. The periods of the sequence are exactly the multiples of 65536 unless the clock at the first call is 35186 modulo 65537; then the numbers repeat already after 32 calls. The numbers are the same one forever (16724) exactly if the clock at the first call is 232232777 modulo 252645135, as on 24 May 2025 at 16:19:47 UTC. Programs started a multiple of 252645135 seconds apart get the same numbers.", "quantifier": "every value of the clock at the first call, every position in the sequence, every candidate period", "why_tests_cant": "A period of 65536 and the absence of a smaller one concern infinite sequences for all seeds; the seconds in which the generator is stuck are eight years apart.", "anchors": ["src/vita/math/math.c:vt_math_random_u64"]}
{"id": "C96", "title": "Normally distributed random numbers are returned except in one second of eight years, in which the call never ends", "statement": "A call of vt_math_random_f32_normal returns after drawing at most 32790 pairs, however many numbers were drawn before, unless the clock at the first use of the generator was 232232777 modulo 252645135 (as on 24 May 2025 at 16:19:47 UTC). In such a second every call that has no stored number loops forever.", "quantifier": "every value of the clock from 0 to 2^46 at the first draw, every number of earlier draws, all parameters, every C library whose sin, pow, log and sqrt are accurate to 2^-50 (sin: 2^-40)", "why_tests_cant": "Termination has to be shown for all 252645135 states of the generator; the seconds in which the call hangs are eight years apart, and no test runs in them.", "anchors": ["src/vita/math/math.c:vt_math_random_f32_normal", "src/vita/math/math.c:vt_math_random_u64"]}
{"id": "C97", "title": "The capacity of a string or vector never shows in its contents", "statement": "Two strings (vectors) that show the same text (elements) behave alike under the same history of calls, whatever their capacities: they end with the same text (elements) or are stopped by the same check, unless one of them is refused memory. Calls of vt_str_reserve and vt_str_shrink (vt_vec_reserve) can be put anywhere into a history without any effect on the contents.", "quantifier": "every pair of capacities, every history of editing calls (vectors: without vt_vec_resize, which makes the capacity the length), every way to put in the calls that change the capacity", "why_tests_cant": "It is a statement about pairs of runs; a test compares one pair, and a difference may need a text that just fits the block.", "anchors": ["src/vita/container/str.c:vt_str_reserve", "src/vita/container/str.c:vt_str_shrink", "src/vita/container/vec.c:vt_vec_reserve"]}
{"id": "C98", "title": "An edit and the opposite edit give the old contents back", "statement": "Text inserted or appended and then removed again leaves the old text; text removed and then inserted (or appended, if it was the end) leaves the old text, with no request for memory and the same capacity. The same holds for elements of vectors with the stable strategy. A field taken off by vt_str_pop_get_first can be joined to the rest with the separator to give the text back; replacing characters by others that do not occur can be undone by the opposite replacement; the last segment of a built path can be popped again.", "quantifier": "all strings, vectors, capacities, inserted texts, positions, separators and path segments", "why_tests_cant": "A statement about every pair of calls at every position; a test tries a few positions, and off-by-one errors in one of the two calls are hidden by the same error in the other unless all positions are covered.", "anchors": ["src/vita/container/str.c:vt_str_insert", "src/vita/container/str.c:vt_str_remove", "src/vita/container/str.c:vt_str_replace_c", "src/vita/container/vec.c:vt_vec_insert", "src/vita/container/vec.c:vt_vec_remove", "src/vita/system/path.c:vt_path_build", "src/vita/system/path.c:vt_path_pop"]}
{"id": "C99", "title": "Functions that normalise a text change nothing when called again", "statement": "Changing the case twice, stripping twice, removing all occurrences of a text or of a set of characters twice, and validating a path twice give the same as doing it once; of several changes of case only the last one counts.", "quantifier": "all texts (for stripping: those in which something remains, see the property about stripping), capacities and arguments", "why_tests_cant": "For removing all occurrences it is not obvious: deleting one occurrence can form a new one. The claim quantifies over all texts.", "anchors": ["src/vita/container/str.c:vt_str_to_uppercase", "src/vita/container/str.c:vt_str_to_lowercase", "src/vita/container/str.c:vt_str_strip", "src/vita/container/str.c:vt_str_remove_all", "src/vita/container/str.c:vt_str_remove_c", "src/vita/system/path.c:vt_path_validate"]}
{"id": "C100", "title": "Dates and moments correspond to each other also while summer time is in force", "statement": "In every time zone, with summer time or without, converting a moment to a date with vt_datetime_from_secs and back with vt_datetime_to_secs gives the moment; vt_datetime_op with an empty delta gives the same date; the week day filled in by vt_datetime_create is that of the date; the difference of the dates of two moments is the time elapsed.", "quantifier": "every zone whose standard time has a fixed offset, every rule for summer time, every moment and date whose year fits the struct", "why_tests_cant": "A test runs in the zone and at the time of year of the machine; build machines use UTC, where the hour that is lost never shows.", "anchors": ["src/vita/time/datetime.c:vt_datetime_vdt_to_tm", "src/vita/time/datetime.c:vt_datetime_to_secs", "src/vita/time/datetime.c:vt_datetime_from_secs", "src/vita/time/datetime.c:vt_datetime_op", "src/vita/time/datetime.c:vt_datetime_create"]}
{"id": "C101", "title": "Adding months and years leads to the same day of another month", "statement": "vt_datetime_op with months and years of any sign gives the same day of the month and time of day that many months on, with the right week day and day of the year; if that month is too short, the days in excess are counted into the next month. Days, hours, minutes and seconds are then counted on from there. Adding months and years and taking them off again gives the old date for days up to the 28th.", "quantifier": "every valid date (year not 0), every delta, results whose year fits the struct, zones without summer time", "why_tests_cant": "All pairs of months with all lengths, leap years, year ends in both directions and negative deltas.", "anchors": ["src/vita/time/datetime.c:vt_datetime_op"]}
{"id": "C102", "title": "Text inside a string may be named as what to remove, strip, replace or extract", "statement": "Passing a pointer into vt_str_z(s) as the text to remove, the characters to remove, strip or replace, the text to replace, or the source to extract from, while s itself is changed, gives the same as passing a copy of that text. The same holds for storing the base name of a path, or a popped field, in the string it is taken from. No such call runs forever or uses memory it must not use.", "quantifier": "all strings, all capacities, all positions of the argument inside the string", "why_tests_cant": "The outcome depends on how the argument and the edited part overlap and on whether the block is moved; the code reads its argument while it changes it, and a test tries a few positions.", "anchors": ["src/vita/container/str.c:vt_str_remove_first", "src/vita/container/str.c:vt_str_remove_all", "src/vita/container/str.c:vt_str_remove_c", "src/vita/container/str.c:vt_str_strip_c", "src/vita/container/str.c:vt_str_replace", "src/vita/container/str.c:vt_str_replace_c", "src/vita/container/str.c:vt_str_split_between", "src/vita/container/str.c:vt_str_pop_get_first", "src/vita/system/path.c:vt_path_basename"]}
{"id": "C103", "title": "Searching a vector of numbers finds the first equal number", "statement": "vt_vec_can_findi8 ... vt_vec_can_findu64, vt_vec_can_findf, vt_vec_can_findd and vt_vec_can_findr return the index of the first element that is equal (as == compares numbers of that type) to the value, and -1 if there is none.", "quantifier": "all vectors whose element size is that of the type, all bit patterns of the elements and of the value, including infinities, NaN, both zeros, and any contents of padding bytes", "why_tests_cant": "For the floating point types it depends on single bit patterns out of 2^32 and 2^64, and for long double on bytes that the program never writes.", "anchors": ["src/vita/container/vec.c:vt_vec_can_find", "inc/vita/container/vec.h:vt_vec_can_findf", "inc/vita/container/vec.h:vt_vec_can_findr"]}
{"id": "C104", "title": "Minimum, maximum and clamp of floating point numbers", "statement": "vt_cmp_minf/d/r and vt_cmp_maxf/d/r return one of their arguments and it is not above (below) either of them; with one NaN they return the other argument. vt_cmp_clampf/d/r with bounds l <= h returns a number between the bounds, keeps numbers between them, gives the bound for numbers beyond it, and is idempotent; a NaN bound is ignored.", "quantifier": "all pairs and triples of bit patterns, including infinities, NaN and both zeros", "why_tests_cant": "2^96 triples for float alone; the failing patterns are NaN in certain positions.", "anchors": ["src/vita/algorithm/comparison.c:vt_cmp_minf", "src/vita/algorithm/comparison.c:vt_cmp_maxf", "src/vita/algorithm/comparison.c:vt_cmp_clampf"]}
{"id": "C105", "title": "Numbers are read and written through a span", "statement": "Through a span over a part of an array of numbers, vt_span_getT(i) returns the number at that place and vt_span_setT(i) changes it and nothing else, for every type T; in debug builds indices outside the span terminate the program. No access leaves the memory of the array or of the parameter.", "quantifier": "every array, every window, every index, every type and bit pattern, also types of another size than the elements", "why_tests_cant": "All windows, values and mismatched types; an access beyond the parameter is not visible in the results.", "anchors": ["src/vita/container/span.c:vt_span_get", "src/vita/container/span.c:vt_span_set"]}
{"id": "C106", "title": "What is sent over a connection arrives unchanged, in order, at most once", "statement": "For any sequence of vt_socket_send on one end of a connection and vt_socket_receive on the other, with any sizes, short transfers and failures: the bytes which the receiver finds in its buffers according to the returned counts, followed by the bytes under way, are the bytes which the sender was told were sent.", "quantifier": "every sequence of calls, every size of every transfer, every data", "why_tests_cant": "Short transfers and failures depend on the kernel and the network; the claim is about all interleavings of both ends.", "anchors": ["src/vita/network/sockets.c:vt_socket_send", "src/vita/network/sockets.c:vt_socket_receive"]}
{"id": "C107", "title": "Receiving with a time limit ends in time", "statement": "vt_socket_receive_timed and vt_socket_receive_timed_from return after at most timeout milliseconds, with 0 if nothing arrived; data, and failures, are reported at once as by the functions without limit; timeout 0 does not wait, timeout -1 waits like the function without limit.", "quantifier": "every timeout, every moment at which data, errors or signals arrive", "why_tests_cant": "The failing limits are those above 24 days; no test waits that long.", "anchors": ["src/vita/network/sockets.c:vt_socket_poll", "src/vita/network/sockets.c:vt_socket_receive_timed", "src/vita/network/sockets.c:vt_socket_receive_timed_from"]}
{"id": "C108", "title": "Every message of the library is formatted correctly", "statement": "Wherever the library formats a message of its own (assertions, debug output, logs, errors, help, statistics), the formatting is defined for all values of the arguments, and the message contains every text and every number that is passed.", "quantifier": "all 522 calls with a fixed format in the sources, all values of their arguments", "why_tests_cant": "Most of these messages are printed only on failures; the wrong ones go unnoticed on machines where a wrong argument is merely a wrong number. The compiler cannot check them, because the functions are not declared as taking a format.", "anchors": ["src/vita/util/debug.c:vt_debug_printf", "src/vita/util/log.c:vt_log", "src/vita/allocator/mallocator.c:vt_mallocator_alloc", "src/vita/time/datetime.c:vt_datetime_find_year_day"]}
{"id": "C109", "title": "Datagrams arrive whole or cut, never mixed, with the address of their sender", "statement": "For any sequence of vt_socket_send_to and vt_socket_receive_from calls on any number of sockets, whatever the network loses, repeats or reorders: a receiving call either fails, changing neither buffer nor address, or stores the front of exactly one datagram that was sent to its address before, as much as fits into the buffer, returns that size, leaves the rest of the buffer alone and stores the address from which the datagram was sent, which can be used for sending the answer.", "quantifier": "every sequence of calls, every choice of the network, every data and buffer size", "why_tests_cant": "Loss, repetition and order are up to the network; no test sees all of them.", "anchors": ["src/vita/network/sockets.c:vt_socket_send_to", "src/vita/network/sockets.c:vt_socket_receive_from"]}
{"id": "C110", "title": "Building a container piece by piece takes work in proportion to its size", "statement": "In a history of calls on one container in which the user does not set the capacity, the members moved to new blocks are at most a constant times the members that were there or were added, and the number of new blocks is logarithmic in the growth.", "quantifier": "every history of calls, every length", "why_tests_cant": "The cost is not a result; a quadratic cost shows only with sizes that tests do not reach.", "anchors": ["src/vita/container/vec.c:vt_vec_push_back", "src/vita/container/vec.c:vt_vec_insert", "src/vita/container/plist.c:vt_plist_push_back", "src/vita/container/str.c:vt_str_append_n"]}
{"id": "C111", "title": "The loop macros visit the numbers of their range", "statement": "VT_FOREACH(i, from, to) executes its statement for from, from+1, ..., to-1 in this order, VT_FOREACH_R(i, from, to) for the same numbers in the opposite order, and VT_FOREACH_STEP(i, from, to, step) for from, from+step, ... as far as they are below to; each of them ends if the statement does.", "quantifier": "every pair of bounds, every step, every statement that leaves the variable alone", "why_tests_cant": "The bounds are arbitrary 64-bit numbers; wrapping around shows only next to the largest ones, and a loop that never ends cannot be observed.", "anchors": ["inc/vita/core/core.h:VT_FOREACH", "inc/vita/core/core.h:VT_FOREACH_R", "inc/vita/core/core.h:VT_FOREACH_STEP"]}
{"id": "C112", "title": "Out-of-range arguments get the documented replacement", "statement": "Where the headers document what is used instead of an argument out of range, that is used: the information level for an unknown log level in vt_log, vt_log_redirect_level_output and vt_log_get_level_str; the nearest month for a month outside 1..12 and 28 days for February of an invalid year in vt_datetime_find_days_in_month; the year 1900 for an invalid year in vt_datetime_is_leap_year, vt_datetime_find_days_in_year, vt_datetime_to_secs and the differences; and -1 for an invalid date in vt_datetime_find_year_day and vt_datetime_find_week_day.", "quantifier": "all level numbers, logger states, messages, dates and time zones", "why_tests_cant": "Tests pass valid arguments; the replacement is documented for every value out of range, and reading outside of a table often goes unnoticed.", "anchors": ["inc/vita/util/log.h", "src/vita/util/log.c", "inc/vita/time/datetime.h", "src/vita/time/datetime.c"]}
{"id": "C113", "title": "Lack of memory ends the program and changes nothing else", "statement": "When the C library refuses memory, the call ends the program, in debug and release builds; it does not return. Memory has no other influence: if everything granted in one run is also granted in another, then any history of vector, list or string calls and every other modelled function either ends the first run for want of memory or has the same outcome in both, so that what succeeds with little memory succeeds with more, with the same result.", "quantifier": "all environments that grant more or less, all histories of calls and all arguments", "why_tests_cant": "Tests cannot make single requests fail and compare with a run in which they do not; the property is about pairs of runs.", "anchors": ["src/vita/core/core.c", "src/vita/container/vec.c", "src/vita/container/plist.c", "src/vita/container/str.c", "src/vita/allocator/mallocator.c", "src/vita/system/path.c", "src/vita/system/fileio.c"]}
{"id": "C114", "title": "The version text says what the version numbers say", "statement": "vt_version_get and vt_compiler_get_version return a text that is the decimal major, minor and patch number with points between them; the numeric fields of the same struct hold these numbers whenever they fit, and the text determines the numbers.", "quantifier": "all compiler versions", "why_tests_cant": "A build sees a single compiler version; token pasting is undefined unless every intermediate result is a token.", "anchors": ["inc/vita/core/version.h", "src/vita/core/version.c", "inc/vita/core/compiler.h", "src/vita/core/compiler.c", "inc/vita/core/core.h:VT_PCAT"]}
{"id": "C115", "title": "Check and log macros report their place and quit as documented", "statement": "Uses of VT_CHECK, VT_ENFORCE, VT_NOTE, VT_REQUIRED, VT_TODO, VT_UNIMPLEMENTED and the VT_DEBUG macros one after the other write to stderr exactly one report for each that applies, with time, subject, condition, source file name without directories, function, line and message; VT_CHECK, VT_NOTE and VT_DEBUG_PRINTF move on, the others end the program, and the VT_DEBUG macros do nothing in release builds. The VT_LOG macros write one line each with their level, file name and line; an assertion that holds writes nothing, and only a fatal message or failed assertion ends the program.", "quantifier": "all sequences of uses, all source paths, both builds", "why_tests_cant": "The macros end the program, and their behaviour depends on the build and on the path by which the compiler was given the file.", "anchors": ["inc/vita/util/debug.h", "inc/vita/util/log.h", "inc/vita/core/core.h:__SOURCE_FILENAME__"]}
{"id": "C116", "title": "A failed formatting is reported and changes nothing", "statement": "If the text of vt_str_appendf or vt_str_insertf cannot be formatted (a formatting error, or a text too long for the formatter to count), the failure status is returned and the string is as before; otherwise success is returned and the text is in place.", "quantifier": "all strings, positions and outcomes of the formatter", "why_tests_cant": "Formatting errors and texts of 2^31 characters do not occur in tests.", "anchors": ["src/vita/container/str.c:vt_str_appendf", "src/vita/container/str.c:vt_str_insertf"]}
{"id": "C117", "title": "Containers in one memory do not disturb each other", "statement": "In any program that creates, changes, copies and destroys vectors, pointer lists and strings, on the system heap and in a tracking allocator, what a container holds is the result of the calls on it alone, in their order: a call on one container leaves pointer, header, buffer and contents of every other one as they were, although buffers move and addresses of freed blocks are used again; no two live containers share a block; and the blocks of the rest of the program are not written to.", "quantifier": "every program, every choice of addresses by the C library, every number of containers", "why_tests_cant": "Interference shows only for particular layouts of the heap and particular interleavings.", "anchors": ["src/vita/container/common.c", "src/vita/container/vec.c", "src/vita/container/plist.c", "src/vita/container/str.c", "src/vita/allocator/mallocator.c"]}
{"id": "C118", "title": "A string's own text may be formatted into it", "statement": "vt_str_insertf and vt_str_appendf may be given pointers into the text of the string itself for %s and %.*s conversions, in any number and together with other text; the result is the one for copies of these texts.", "quantifier": "all strings, capacities, positions, and lists of pieces of the output", "why_tests_cant": "Whether overlapping use goes wrong depends on spare capacity, on whether the block moves, and on how the C library's formatter reads and writes.", "anchors": ["src/vita/container/str.c:vt_str_appendf", "src/vita/container/str.c:vt_str_insertf", "src/vita/container/str.c:vt_str_vfmt_append"]}
{"id": "C119", "title": "The character functions of the C library get arguments for which they are defined", "statement": "vt_str_strip, vt_str_strip_punct, vt_str_to_uppercase, vt_str_to_lowercase, vt_str_is_numeric, the conversions of texts to numbers and the checks of time stamps call isspace, ispunct, isdigit, toupper and tolower only with the value of an unsigned char or EOF, whatever bytes the text has, so that their behaviour is defined and is the one of the other properties.", "quantifier": "all texts, with signed and with unsigned char", "why_tests_cant": "C libraries in common use happen to answer for negative values as well; on others the result is a read outside of a table.", "anchors": ["src/vita/container/str.c:vt_str_strip", "src/vita/container/str.c:vt_str_strip_punct", "src/vita/container/str.c:vt_str_to_uppercase", "src/vita/container/str.c:vt_str_to_lowercase", "src/vita/container/str.c:vt_str_is_numeric", "src/vita/container/str.c:vt_str_is_numeric_z", "src/vita/core/conv.c", "src/vita/time/datetime.c:vt_datetime_is_valid_fmt"]}
{"id": "C120", "title": "Elements lie at aligned addresses", "statement": "Every pointer to an element that a vector returns, and every place where a typed function of a vector or span or a pointer list reads or writes through a typed pointer, is a multiple of the alignment of the type, provided that the element size is a multiple of the size of the type and, for a span, that the memory given by the caller is aligned; elements do not overlap. Without the proviso the access is undefined.", "quantifier": "all buffers from the C library, all element sizes, types and indices, all spans", "why_tests_cant": "Misaligned accesses work unnoticed on x86 and fail on other processors or after vectorisation.", "anchors": ["src/vita/container/vec.c:vt_vec_get", "src/vita/container/vec.c:vt_vec_pop_get", "src/vita/container/span.c:vt_span_get", "src/vita/container/span.c:vt_span_from_to", "src/vita/container/plist.c", "src/vita/container/common.c:vt_array_get"]}
{"id": "C121", "title": "Pointers into a container stay valid until it has to grow", "statement": "A pointer to an element or to the text of a vector, list or string stays valid, and shows the current contents, during all calls on the container that neither change its capacity on request nor put in more than there is room for, and during all operations on other containers; removing, overwriting, clearing, and replacing a text by one that is not longer never move the buffer. When a call has moved the buffer, or the container has been destroyed, nothing is left at the old address.", "quantifier": "every program, every sequence of calls, every choice of addresses by the C library", "why_tests_cant": "Whether a stale pointer still shows plausible data depends on where realloc puts the block.", "anchors": ["src/vita/container/vec.c", "src/vita/container/plist.c", "src/vita/container/str.c", "src/vita/container/common.c"]}
{"id": "C122", "title": "A program gets from its containers what it would get from separate values", "statement": "A program that looks at containers between calls and chooses the next calls and their arguments by what it finds there (the text of one string as argument for another, loops up to a length, and so on) ends as it would if each container were a value of its own: same decisions, same contents, same kind of end. Where blocks lie, what else is in memory and which allocator is used make no difference, and a program that has destroyed all its containers has given back all memory, whichever way it went.", "quantifier": "every program that terminates or is stopped, every choice of addresses by the C library, every initial heap", "why_tests_cant": "Tests run single programs on one allocator; a result that depends on addresses shows up by chance.", "anchors": ["src/vita/container/vec.c", "src/vita/container/plist.c", "src/vita/container/str.c", "src/vita/container/common.c", "src/vita/allocator/mallocator.c"]}
{"id": "C123", "title": "Every call with a loop comes to an end", "statement": "The functions whose loops go on until something is found (finding, counting, splitting, removing, replacing, popping and stripping in strings, the base name of a path, creating parent directories, listing and removing a subtree, greatest common divisor, least common multiple, palindrome) end for all arguments, also for strings whose memory or length has been damaged by other code, after a number of rounds bounded by the size of the memory, the length of the path or a constant.", "quantifier": "all strings, texts, file systems (with links that lead back) and numbers; also damaged strings", "why_tests_cant": "An endless loop is a property of all executions; tests only see that some calls returned.", "anchors": ["src/vita/container/str.c:vt_str_can_find", "src/vita/container/str.c:vt_str_split", "src/vita/container/str.c:vt_str_remove_last", "src/vita/container/str.c:vt_str_remove_all", "src/vita/container/str.c:vt_str_replace", "src/vita/container/str.c:vt_str_replace_last", "src/vita/container/str.c:vt_str_pop_get_last", "src/vita/container/str.c:vt_str_strip", "src/vita/container/str.c:vt_str_strip_punct", "src/vita/container/str.c:vt_str_strip_c", "src/vita/system/path.c:vt_path_basename", "src/vita/system/path.c:vt_path_mkdir_parents", "src/vita/system/path.c:vt_path_dir_list_recurse", "src/vita/system/path.c:vt_path_rmdir_recurse", "src/vita/math/math.c:vt_math_gcd", "src/vita/math/math.c:vt_math_lcm", "src/vita/math/math.c:vt_math_is_palindrome"]}
{"id": "C124", "title": "Options that share a variable", "statement": "Several options of a table may point to the same variable (two names for one setting). After successful parsing the variable holds the last of the values given with any of them, in the order of the arguments; if none of them was given it is as before. A table in which every option has a variable of its own is the special case of the earlier properties.", "quantifier": "all tables, with any sharing of variables by options of the same type, and all argument lists", "why_tests_cant": "Tests use tables in which every option has its own variable.", "anchors": ["src/vita/util/argopt.c:vt_argopt_parse", "src/vita/util/argopt.c:vt_argopt_assign_value"]}
{"id": "C125", "title": "A callback may edit the container it is applied to", "statement": "vt_vec_apply, vt_str_apply and vt_plist_apply call the callback for the indices 0, 1, ..., n-1 in this order, once each, where n is the length at the time of the call, whatever the callback does meanwhile to the elements and to the length of the container, as long as the buffer is neither moved nor shortened; for a list of pointers the callback gets the pointer that is at the index when its turn comes.", "quantifier": "all containers, all callbacks with a state of their own", "why_tests_cant": "Tests use callbacks that only look at the element they are given.", "anchors": ["src/vita/container/vec.c:vt_vec_apply", "src/vita/container/str.c:vt_str_apply", "src/vita/container/plist.c:vt_plist_apply"]}
{"id": "C126", "title": "Polling reports what is ready, in time", "statement": "vt_socket_poll on any number of descriptors returns at the first moment at which there is something to report for one of them, or at the time limit if that is earlier, or when a signal arrives. It returns the number of descriptors with something to report and fills in for every descriptor what holds at that moment among the events asked for, errors and hang-ups, changing nothing else; 0 only at the time limit; and the failure status, with the descriptors as they were, after a signal or with more descriptors than the process may have. The receiving functions with a time limit do this for the one socket they are given.", "quantifier": "all lists of descriptors, all time limits, all courses of events", "why_tests_cant": "Tests poll one socket with a short limit while a peer sends or does not; they do not see how the moment of an event and the limit interact, nor long limits.", "anchors": ["src/vita/network/sockets.c:vt_socket_poll", "src/vita/network/sockets.c:vt_socket_receive_timed", "src/vita/network/sockets.c:vt_socket_receive_timed_from"]}
{"id": "C127", "title": "Counting, replacing, splitting and popping agree on the occurrences of a text", "statement": "If vt_str_can_find counts n occurrences of z in a string, then vt_str_replace(s, z, r) changes the length by n(|r|-|z|); the strings returned by vt_str_split by z are at most n+1 and have together the length of s less n|z| (unless s ends in two separators, which splitting is not defined for); popping the first field by z takes the first of the pieces and leaves the others; replacing z by itself changes nothing. If r has no character in common with s and z, then after replacing z by r no z is left, r is counted n times, and replacing r by z restores the text. vt_str_starts_with holds exactly if vt_str_find finds the text at the beginning.", "quantifier": "all strings and all non-empty texts z and r", "why_tests_cant": "Each function is tested on its own; that four different loops over the occurrences agree for all texts, overlapping occurrences included, is not.", "anchors": ["src/vita/container/str.c:vt_str_can_find", "src/vita/container/str.c:vt_str_replace", "src/vita/container/str.c:vt_str_split", "src/vita/container/str.c:vt_str_pop_get_first", "src/vita/container/str.c:vt_str_starts_with", "src/vita/container/str.c:vt_str_find"]}
{"id": "C128", "title": "Adding spans of time composes, commutes and can be undone", "statement": "In a time zone without summer time, vt_datetime_op with a span of days, hours, minutes and seconds (of any signs) gives the date exactly that many seconds on, and vt_datetime_diff_secs of the two dates is the span. Spans added one after the other, in any order and number, give the same date as their sum added at once; a span added and taken off again gives the old date; the same span added to two dates keeps their difference. Months and years added in two steps give the same as at once.", "quantifier": "all dates of years that fit the struct, all spans of any signs, all sequences of spans, all offsets of the zone", "why_tests_cant": "The test adds one delta to one date; composition needs all pairs of deltas and dates, in particular those that cross months, leap days, the year 0 and days of the month that other months do not have.", "anchors": ["src/vita/time/datetime.c:vt_datetime_op", "src/vita/time/datetime.c:vt_datetime_diff_secs", "src/vita/time/datetime.c:vt_datetime_vdt_to_tm"]}
{"id": "C129", "title": "A program sees the file system as a tree", "statement": "Any sequence of calls of vt_path_mkdir, rmdir, remove, rename, exists, is_dir, is_file, vt_file_write, writeln, append, appendln and read_to_buffer with absolute paths, on a file system without links where everything is permitted and there is room, leaves exactly the files and directories and returns exactly the answers that the calls have on a tree of names: making is adding a leaf, removing is taking off a leaf, renaming is moving a whole branch, and so on. A call that returns false has changed nothing; nothing changes outside the paths named by the calls; making and removing, writing and removing, renaming there and back restore everything; what is written under one name is read under the other after renaming.", "quantifier": "all programs (lists of calls), all path texts, all trees, all file contents", "why_tests_cant": "A test runs one short fixed sequence on one directory; that no sequence on any tree breaks the picture, above all with branches moved while files are below them, needs all of them.", "anchors": ["src/vita/system/path.c:vt_path_mkdir", "src/vita/system/path.c:vt_path_rmdir", "src/vita/system/path.c:vt_path_remove", "src/vita/system/path.c:vt_path_rename", "src/vita/system/fileio.c:vt_file_write", "src/vita/system/fileio.c:vt_file_append", "src/vita/system/fileio.c:vt_file_read_to_buffer"]}
{"id": "C130", "title": "The allocator takes over blocks of other origin, and the counters say so", "statement": "vt_mallocator_realloc and vt_mallocator_free may be given blocks that the program got elsewhere. A reallocated one is from then on a block of the allocator: tracked, counted in the outstanding bytes, freed by vt_mallocator_destroy; it is counted as a reallocation only, so allocations less frees falls short of the number of live blocks by exactly the number of blocks taken over. A freed one is gone and changes nothing in the allocator. NULL can be reallocated (it allocates) and freed (nothing happens) in release builds and ends debug builds. After every such history the tracked blocks are the live ones, the outstanding bytes their sizes added up, no call is undefined and destroying leaves exactly the blocks that are not the allocator's.", "quantifier": "all histories of allocations, reallocations and frees mixed with blocks of other origin, all sizes, all placements by the C allocator", "why_tests_cant": "The tests give the allocator its own blocks only; that the bookkeeping survives every mixture needs an invariant over all histories.", "anchors": ["src/vita/allocator/mallocator.c:vt_mallocator_realloc", "src/vita/allocator/mallocator.c:vt_mallocator_free", "src/vita/allocator/mallocator.c:vt_mallocator_destroy"]}
{"id": "C131", "title": "Chains and branches fit the tree picture", "statement": "Programs that also use vt_path_mkdir_parents, vt_path_rmdir_recurse, vt_path_dir_list, vt_path_dir_list_recurse and vt_file_read, in any mixture with the calls of the previous tree property, behave as on a tree: making with parents adds exactly the directories that are missing down to the first file in the way, recursive removal cuts off exactly one branch, the listings name exactly the entries of a directory or of a branch, each once, contents before their directory. Making a chain and removing it from where it began restores everything; after a branch is removed its listing is NULL; a file in a renamed branch is read under its new name with what was written under the old one; what the calls do not name is untouched.", "quantifier": "all programs (lists of calls), all path texts, all trees, all orders in which directories list their entries", "why_tests_cant": "The tests make one chain and remove it; that any mixture of these calls with renames and writes keeps to the picture needs an induction over programs.", "anchors": ["src/vita/system/path.c:vt_path_mkdir_parents", "src/vita/system/path.c:vt_path_rmdir_recurse", "src/vita/system/path.c:vt_path_dir_list", "src/vita/system/path.c:vt_path_dir_list_recurse"]}
{"id": "C132", "title": "The order and the spelling of the options do not matter", "statement": "If two argument lists give each option the same values in the same order, vt_argopt_parse has the same effect on the variables for both, whatever the order of the options among each other. `key=value`, `key value` (a value without a leading dash) and, for the value 1, the bare `key`, with the long or the short name, are the same anywhere in the list, failures included. Parsing one list and then another is parsing them as one. Parsing the same list a second time leaves every variable as it is, unless the first time left a C string without its terminator.", "quantifier": "all option tables and types of options, all argument lists in the grammar, all initial values of the variables", "why_tests_cant": "The test parses one fixed argv; that permutations, spellings, splittings and repetitions of every argv agree needs all of them.", "anchors": ["src/vita/util/argopt.c:vt_argopt_parse"]}
{"id": "C133", "title": "Paths are put together and taken apart as the file system sees them", "statement": "The text that vt_path_build makes of the path of a directory and the name of an entry names that entry, through whatever links the path leads; vt_path_pop of it is the path of the directory and vt_path_basename the name. Conversely, vt_path_pop of a path that names an entry by its name, and has something before the last separator, names the directory of the entry; popping once for each name leads back to where the names began. A path built in steps is the path built at once. Whatever vt_path_dir_list_recurse lists is taken apart into its directory and its name. The exceptions are exactly: an entry of the root directory leaves the empty text, which names nothing; a relative path of one name stays as it is; a trailing separator is all that goes; a path ending in .. loses the dots only.", "quantifier": "all file systems with links, all path texts within PATH_MAX, all names", "why_tests_cant": "The tests compare texts of a few paths; that the texts name the right places in every file system, links and cycles of links included, needs an induction over path resolution.", "anchors": ["src/vita/system/path.c:vt_path_build", "src/vita/system/path.c:vt_path_pop", "src/vita/system/path.c:vt_path_basename", "src/vita/system/path.c:vt_path_dir_list_recurse"]}
{"id": "C134", "title": "Date texts sort like dates", "statement": "For dates of the years 1000 to 9999 the texts written by vt_datetime_to_text, vt_datetime_to_text_iso and vt_datetime_to_text_iso_ext, each format for itself, compare by strcmp as the dates compare in time, and are equal only for equal dates. If the dates exist, vt_datetime_to_secs and vt_datetime_diff_secs agree with that order in every time zone. Years of fewer digits are not filled up: every date of the years 1000 to 1999 sorts before every date of the years 200 to 999.", "quantifier": "all pairs of dates with fields in range, all contents of the buffers, all time zones", "why_tests_cant": "Sorted file names and logs rely on all pairs of dates; a test compares a few.", "anchors": ["src/vita/time/datetime.c:vt_datetime_to_text", "src/vita/time/datetime.c:vt_datetime_to_text_iso", "src/vita/time/datetime.c:vt_datetime_to_text_iso_ext", "src/vita/time/datetime.c:vt_datetime_to_secs"]}
{"id": "C135", "title": "Variable arguments are read in order and always released", "statement": "Each variadic function (vt_log, vt_debug_assert, vt_debug_printf, vt_file_writef, vt_file_writefln, vt_file_writefc, vt_path_build_n, vt_str_join_n, vt_str_appendf, vt_str_insertf) reads only arguments that were passed, never from a list that another function has already read from, always from the first argument on, so that the text measured is the text written, and ends every list it starts or copies before it returns, on every way through the function.", "quantifier": "all numbers of arguments passed and asked for, all outcomes of opening files and of the formatter at each of its calls", "why_tests_cant": "On common machines va_end does nothing and a list read twice may look intact, so that tests do not notice; failures of the formatter cannot be provoked portably.", "anchors": ["src/vita/util/log.c:vt_log", "src/vita/util/debug.c:vt_debug_assert", "src/vita/util/debug.c:vt_debug_printf", "src/vita/system/fileio.c:vt_file_writef", "src/vita/system/fileio.c:vt_file_writefln", "src/vita/system/fileio.c:vt_file_writefc", "src/vita/system/path.c:vt_path_build_n", "src/vita/container/str.c:vt_str_join_n", "src/vita/container/str.c:vt_str_appendf", "src/vita/container/str.c:vt_str_insertf"]}
{"id": "C136", "title": "What a call opens it closes, and nothing else", "statement": "Reading and writing files, listing and removing directories, logging and debug messages close every file and directory that they open exactly once before they return, on every way through the function, do not use it afterwards, and close nothing else, in particular not stderr. If the process can open no more files, the calls fail like those for a file that does not exist: nothing is changed, created or emptied. A recursive listing has one directory open for each level: with k handles to spare beside the one for the directory itself the list is complete if and only if no directory lies more than k levels down; otherwise directories further down and what follows them in their directory are missing although the call succeeds. 2048 handles are always enough.", "quantifier": "all file systems, all limits on open files and sets of files already open, all files, directories, texts and failures", "why_tests_cant": "A leaked handle is invisible until the limit of the process is reached; tests run with few files and shallow trees, and do not exhaust the handles.", "anchors": ["src/vita/system/fileio.c:vt_file_read", "src/vita/system/fileio.c:vt_file_readb", "src/vita/system/fileio.c:vt_file_read_to_buffer", "src/vita/system/fileio.c:vt_file_writef", "src/vita/system/fileio.c:vt_file_writefln", "src/vita/system/fileio.c:vt_file_writefc", "src/vita/system/path.c:vt_path_dir_list", "src/vita/system/path.c:vt_path_dir_list_recurse", "src/vita/system/path.c:vt_path_rmdir_recurse", "src/vita/util/log.c:vt_log", "src/vita/util/debug.c:vt_debug_assert", "src/vita/util/debug.c:vt_debug_printf"]}
{"id": "C137", "title": "Other processes may change the file system during a call", "statement": "Between any two calls of the system that a path or file function makes, other processes may change the file system in any way. The functions still end without undefined behaviour. vt_file_read returns the first bytes of what the file holds, as many as its size was when it was asked for, or NULL if there are fewer; vt_file_read_to_buffer writes nothing beyond the count. vt_path_mkdir, rmdir and remove return false only if they have changed nothing themselves, and true only if the path existed or they have made or removed that one entry. vt_path_rename returns true only if it has moved exactly what was at the first name at that moment. vt_path_dir_list lists the names that the directory had when it was opened. Whatever vt_path_dir_list_recurse lists was in a listed directory at some moment of the call. vt_path_mkdir_parents called by several processes at once returns true and the directories exist. vt_path_rmdir_recurse removes only entries named by a path that begins with the given one. vt_path_mkdir returns true whenever the directory exists at the end, and vt_path_rmdir_recurse removes nothing outside of the directory.", "quantifier": "all file systems, all paths, all changes by others before each call of the system, all contents of the file when it is read", "why_tests_cant": "Tests run alone on their directory; races between a check and its use need interleavings that cannot be produced on demand.", "anchors": ["src/vita/system/path.c:vt_path_mkdir", "src/vita/system/path.c:vt_path_mkdir_parents", "src/vita/system/path.c:vt_path_rmdir", "src/vita/system/path.c:vt_path_rmdir_recurse", "src/vita/system/path.c:vt_path_remove", "src/vita/system/path.c:vt_path_rename", "src/vita/system/path.c:vt_path_dir_list_recurse", "src/vita/system/path.c:vt_path_get_file_size", "src/vita/system/fileio.c:vt_file_read", "src/vita/system/fileio.c:vt_file_read_to_buffer"]}
{"id": "C138", "title": "Lines written to files come back by reading and splitting", "statement": "After any calls of vt_file_appendln on any files that all returned true, with lines without line ends, reading one of the files, which was missing or empty before, with vt_file_read and splitting the text with vt_str_split at the line ends yields the non-empty lines that were written to this file, in the order of the calls, whatever was written to other files in between.", "quantifier": "all file systems, all sequences of calls, all files and names leading to them, all lines", "why_tests_cant": "A test writes a few lines to one file; the claim joins writing, reading and splitting for all sequences, including empty lines at every place.", "anchors": ["src/vita/system/fileio.c:vt_file_appendln", "src/vita/system/fileio.c:vt_file_read", "src/vita/container/str.c:vt_str_split"]}
{"id": "C139", "title": "Values written into a command line arrive", "statement": "If a program writes numbers as texts with vt_conv_*_to_str, truth values as 1 or 0, characters and non-empty strings as they are, and passes them as name=text for any options of a table, in any order, then vt_argopt_parse of the other program succeeds and the options have the same values: whole numbers exactly, fractions to within a millionth. Options that were not given keep their values.", "quantifier": "all tables, all values of all types, all selections and orders of the options, all sizes of the buffers", "why_tests_cant": "The tests of the conversions and of the parser are separate and use a few values; that both fit together for all values is not tested.", "anchors": ["src/vita/util/argopt.c:vt_argopt_parse", "src/vita/core/conv.c:vt_conv_i32_to_str", "src/vita/core/conv.c:vt_conv_d_to_str", "src/vita/core/conv.c:vt_conv_str_to_i32"]}
{"id": "C140", "title": "Threads with their own containers do not notice each other", "statement": "If several pieces of code, each working on containers it has created itself, are executed in turns, each library call as a whole, in any order, then each of them computes what it would compute alone: at every point its containers hold what they would hold alone, whatever the others have done in between and although all share the heap and the tracking allocator; no two pieces of code ever have a container in common; if every piece of code comes to an end alone, all come to an end in every order that gives each of them enough turns, with the same results in every order; the program is ended in the middle only by a piece of code that would end it alone.", "quantifier": "all numbers of threads, all code, branching on what it reads, all orders of turns, all allocators and reuses of addresses", "why_tests_cant": "The number of orders grows exponentially; tests run one thread.", "anchors": ["src/vita/container/str.c:vt_str_append", "src/vita/container/vec.c:vt_vec_push_back", "src/vita/container/plist.c:vt_plist_push_back", "src/vita/allocator/mallocator.c:vt_mallocator_alloc"]}
{"id": "C141", "title": "Log files read back line by line", "statement": "After any calls of vt_log and the redirecting functions, whose texts contain no line ends and whose files can be opened, reading a log file that was missing or empty before with vt_file_read and splitting it with vt_str_split at the line ends yields one string for each message that was due in this file, in the order of the calls: time, level, condition, place and message as documented. The line of a message that has ended the program is the last one; messages to other files or to stderr make no difference.", "quantifier": "all sequences of calls, all levels, conditions, times and messages of one line, all file systems and file names, debug and release builds", "why_tests_cant": "Tests log a few messages to one file; the claim is about all interleavings of redirections and messages of all levels over any number of files, with links between the names.", "anchors": ["src/vita/util/log.c:13-75", "src/vita/system/fileio.c:3-54", "src/vita/container/str.c"]}
{"id": "C142", "title": "Texts in UTF-8 are edited character by character", "statement": "For texts in UTF-8 the string functions, which only know bytes, act on characters: a text is found exactly where its characters stand; inserting before and after, replacing and removing the first or all occurrences, splitting, popping and comparing give the UTF-8 of what the same operation gives on sequences of characters; removing and stripping sets of ASCII characters, case conversion, vt_path_pop and vt_path_basename never take a character apart; vt_str_insert at a byte position keeps UTF-8 exactly if the position is between two characters.", "quantifier": "every sequence of Unicode characters as text, separator and replacement; every byte position", "why_tests_cant": "There are over a million characters of one to four bytes, and whether a byte sequence matches in the middle of another one depends on the neighbouring characters; tests with a few accented letters cannot exclude a false match or a cut character.", "anchors": ["src/vita/container/str.c:vt_str_insert", "src/vita/container/str.c:vt_str_replace", "src/vita/container/str.c:vt_str_split", "src/vita/container/str.c:vt_str_remove_c", "src/vita/container/str.c:vt_str_strip", "src/vita/system/path.c:vt_path_basename"]}
{"id": "C143", "title": "NULL arguments end debug builds with a report", "statement": "In a debug build, NULL for a pointer parameter of any function never leads to the use of NULL, except for 33 parameters that nothing checks (places given to the allocation functions, texts of vt_strtof and its like, data and addresses of the socket functions, the options of vt_argopt_validate, texts of messages): the call ends the program with a report exactly if one of the NULLs is not for an optional parameter (allocators, containers for results, and a few more), and goes through otherwise. In a release build NULL for a parameter that is not optional is used, unless it is only stored, and no function reports it, except vt_argopt_parse and vt_argopt_print_help.", "quantifier": "all functions with pointer parameters, all combinations of NULL and valid pointers, debug and release builds", "why_tests_cant": "The tests pass valid pointers; a failed assertion ends the test program, so hardly any check is ever tested, let alone combinations of arguments.", "anchors": ["inc/vita/util/debug.h:29-49", "src/vita/container/str.c", "src/vita/container/vec.c", "src/vita/container/plist.c", "src/vita/system/path.c", "src/vita/util/argopt.c", "src/vita/network/sockets.c"]}
{"id": "C144", "title": "Programs that are right with vt_malloc are right with vt_calloc", "statement": "vt_malloc returns a block of the size asked for, none of whose bytes may be read before it is written, or ends the program; it never returns NULL, and it ends the program exactly when vt_calloc does. Any program on blocks that uses vt_malloc, vt_realloc, vt_free, vt_memmove, vt_memcopy, vt_memset and vt_memcmp and does nothing undefined behaves in the same way if vt_calloc takes the place of vt_malloc: same end, same result, same value of every byte that has one. Nor does its outcome depend on what the new blocks happen to contain. The converse is false: a program may read the zeros of vt_calloc. A block that has been freed stays freed whatever the program does afterwards, and every use of it is undefined.", "quantifier": "all programs on any number of blocks, branching on every byte they read; all sizes; debug and release builds", "why_tests_cant": "What is in a block from malloc differs from run to run and is often zero in a fresh process, so tests pass although a program reads bytes it has never written.", "anchors": ["src/vita/core/core.c:vt_malloc", "src/vita/core/core.c:vt_calloc", "src/vita/core/core.c:vt_realloc", "src/vita/core/core.c:vt_memcmp", "inc/vita/core/core.h:VT_MALLOC"]}
