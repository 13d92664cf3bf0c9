{"id": "C01", "title": "Common size does not depend on argument order and is exactly the recycling rule", "statement": "vec_size_common(...) ignores NULLs, returns the unique size other than 1 when the non-NULL inputs have one (0 included), returns 1 when all are size 1, returns the default when there are no non-NULL inputs, and fails exactly when two inputs have different sizes that are both not 1. Reordering the inputs changes neither the result nor whether it fails.", "quantifier": "every list of inputs (any number, any sizes, NULLs anywhere) and every permutation of it", "why_tests_cant": "the claim is about all argument lists and all their permutations; tests fix a handful of short calls", "anchors": ["src/size-common.c: vec_size_common_opts, size2_common", "src/arg-counter.c: reduce, reduce_impl"]}
{"id": "C02", "title": "Recycling gives every input the common size and keeps its values", "statement": "vec_recycle(x, size) succeeds iff vec_size(x) is size or 1; the result has exactly `size` elements; it is x itself when sizes agree and x's only value repeated otherwise. vec_recycle_common applies this to all inputs with the common size and never fails once the common size exists.", "quantifier": "every vector, every target size, every list of inputs", "why_tests_cant": "unbounded sizes and input lists", "anchors": ["src/size.c: vec_check_recycle, vec_recycle", "src/size-common.c: vec_recycle_common_opts"]}
{"id": "C03", "title": "Hash lookups always terminate and never report a full dictionary", "statement": "For every vector that vctrs accepts, each lookup or insertion made by the hash based functions (vec_unique, vec_match, set operations, grouping) ends at an existing equal key or at a free slot; the internal error 'Dictionary is full' is unreachable, whatever the hash values are.", "quantifier": "every table size that is a power of two up to 2^31, every 32-bit hash value, every set of stored keys smaller than the table", "why_tests_cant": "the probe sequence uses wrapping 32-bit arithmetic; adversarial hash values and near-2^31 tables cannot be enumerated by tests", "anchors": ["src/dictionary.c: dict_hash_with, dict_key_size, u32_safe_ceil2, new_dictionary_opts"]}
{"id": "C04", "title": "vec_unique keeps exactly the first occurrence of every distinct value, in order", "statement": "vec_unique_loc(x) lists in increasing order exactly the positions i such that no earlier element equals x[i]; hence vec_unique(x) has no two equal elements and contains an element equal to every element of x. Taking the unique values twice changes nothing.", "quantifier": "every vector (any length, any equality classes, any hash function compatible with equality)", "why_tests_cant": "all inputs and all hash collisions patterns", "anchors": ["src/dictionary.c: vctrs_unique_loc, vec_unique, dict_hash_scalar, dict_put"]}
{"id": "C05", "title": "Duplicate detection and distinct counts agree with uniqueness", "statement": "vec_duplicate_detect(x)[i] is TRUE iff some other element equals x[i]; vec_duplicate_any(x) is TRUE iff some two positions are equal; vec_unique_count(x) equals the length of vec_unique_loc(x).", "quantifier": "every vector", "why_tests_cant": "all inputs and collisions patterns", "anchors": ["src/dictionary.c: vctrs_duplicated, duplicated_any, vctrs_n_distinct"]}
{"id": "C06", "title": "vec_duplicate_id points at the first equal element", "statement": "vec_duplicate_id(x)[i] is the smallest position whose element equals x[i]; two elements are equal iff their ids are equal.", "quantifier": "every vector", "why_tests_cant": "all inputs", "anchors": ["src/dictionary.c: vctrs_id"]}
{"id": "C07", "title": "vec_match and vec_in find the first equal haystack element or nothing", "statement": "vec_match(needles, haystack)[i] is the smallest position of haystack equal to needles[i] and NA when there is none; vec_in is TRUE iff vec_match is not NA. With na_equal = FALSE an incomplete needle yields NA instead, and an incomplete haystack element never matches. Matched against itself, x gives vec_duplicate_id(x); matched against vec_unique(x) it gives vec_group_id(x), and slicing vec_unique(x) by that gives x back up to equality of elements.", "quantifier": "every pair of vectors, both values of na_equal", "why_tests_cant": "all inputs", "anchors": ["src/dictionary.c: vec_match_params, vec_match_loop, vec_match_loop_propagate, vctrs_in"]}
{"id": "C08", "title": "vec_count counts every value once", "statement": "vec_count(x) lists the first location of every distinct value (in hash table order before sorting) with the number of elements equal to it; counts are positive and sum to the size of x. With sort = \"count\" the counts do not increase and keys with equal counts are in order of first occurrence; with \"location\" the keys are in order of first occurrence; with \"key\" they are in the order of vec_order(); in every case each row keeps its own count. The counts are the sizes of the groups of vec_group_loc(x), beside their first locations.", "quantifier": "every vector", "why_tests_cant": "all inputs", "anchors": ["src/dictionary.c: vctrs_count", "R/dictionary.R: vec_count"]}
{"id": "C09", "title": "Set operations compute the mathematical set operation with unique, first-occurrence ordering", "statement": "vec_set_intersect / difference / union / symmetric_difference return pairwise distinct values; membership is exactly the set operation on the members of x and y; the order is that of first occurrence in x and then (union, symmetric difference) in y. The operations agree with one another and with vec_unique(): the union is vec_unique() of both combined, the symmetric difference is the two differences, the difference from the difference is the intersection, and intersection and difference share out vec_unique(x).", "quantifier": "every pair of vectors", "why_tests_cant": "all pairs of inputs", "anchors": ["src/set.c: vec_set_intersect, vec_set_difference, vec_set_union, vec_set_symmetric_difference"]}
{"id": "C10", "title": "vec_group_id numbers values by first appearance", "statement": "vec_group_id(x): ids are equal iff the elements are equal; ids are 1..n without gaps, new ids appear in increasing order; attribute n is the number of distinct values. The ids of the ids are the ids (vec_group_id() is idempotent).", "quantifier": "every vector", "why_tests_cant": "all inputs", "anchors": ["src/group.c: vctrs_group_id"]}
{"id": "C11", "title": "vec_group_rle is a lossless run-length encoding of vec_group_id", "statement": "Expanding each group g of vec_group_rle(x) its length times gives vec_group_id(x); lengths are positive, adjacent groups differ and lengths sum to the size of x.", "quantifier": "every vector", "why_tests_cant": "all inputs", "anchors": ["src/group.c: vctrs_group_rle"]}
{"id": "C12", "title": "vec_group_loc partitions the rows", "statement": "The locations in vec_group_loc(x) partition 1..n: each row appears in exactly one group, groups contain exactly the rows equal to their key, rows inside a group are increasing and groups are ordered by first appearance. The first locations of the groups are vec_unique_loc(x), the keys are vec_unique(x), and vec_group_id and vec_duplicate_id name the group of each location.", "quantifier": "every vector", "why_tests_cant": "all inputs", "anchors": ["src/group.c: vec_group_loc"]}
{"id": "C13", "title": "Run functions agree with each other and with adjacent equality", "statement": "vec_identify_runs(x) starts at 1 and increases by one exactly where x[i] differs from x[i-1]; vec_run_sizes are the lengths of the maximal runs (positive, summing to n); vec_detect_run_bounds(which='start'/'end') marks exactly first/last elements of runs; vec_locate_run_bounds lists exactly the marked positions.", "quantifier": "every vector, both values of `which`, atomic vectors and data frames", "why_tests_cant": "all inputs", "anchors": ["src/runs.c: vec_detect_run_bounds, vec_locate_run_bounds, vec_identify_runs, vec_run_sizes, vec_detect_run_bounds_bool, df_detect_run_bounds_bool"]}
{"id": "C14", "title": "vec_unrep is inverted by vec_rep_each", "statement": "With (key, times) = vec_unrep(x): vec_rep_each(key, times) reproduces x up to element equality; adjacent keys are never equal and all times are positive. Conversely vec_unrep(vec_rep_each(key, times)) gives key and times back if the times are positive and neighbours in key differ.", "quantifier": "every vector", "why_tests_cant": "all inputs", "anchors": ["src/rep.c: vec_unrep, vec_rep_each", "src/runs.c: vec_run_sizes, vec_locate_run_bounds"]}
{"id": "C15", "title": "vec_rep and vec_rep_each produce exactly the repeated elements or an error", "statement": "vec_rep(x, t)[k] = x[k mod n] with n*t elements; vec_rep_each(x, times) contains x[i] times[i] times in order (times recycled from size 1); times that are not whole numbers, negative/missing times, wrong sizes and results longer than 2^31-1 are errors, and nothing is read or written out of bounds. Repeating twice is repeating by the product, vec_rep() concatenates copies, vec_rep_each() interleaves them, and neither changes the unique values.", "quantifier": "every vector and every times vector", "why_tests_cant": "all inputs, sizes near 2^31", "anchors": ["src/rep.c: ffi_vec_rep, ffi_vec_rep_each, vec_rep, vec_rep_each, vec_rep_each_uniform, vec_rep_each_impl"]}
{"id": "C16", "title": "vec_expand_grid enumerates every combination exactly once in the requested order", "statement": "For inputs of sizes s_1..s_k the result has prod(s_i) rows; row r holds the combination whose mixed-radix digits encode r (first input slowest for vary='slowest', fastest for vary='fastest'), so each combination occurs exactly once; NULL inputs are dropped; a size above 2^31-1 is an error.", "quantifier": "every list of inputs and both `vary` values", "why_tests_cant": "unbounded numbers of inputs and sizes", "anchors": ["src/expand.c: vec_expand_grid", "src/rep.c: vec_rep, vec_rep_each"]}
{"id": "C17", "title": "vec_fill_missing copies the nearest non-missing value in the direction, at most max_fill times", "statement": "For direction 'down' each missing element takes the last non-missing value before it when within max_fill consecutive missings, and stays missing otherwise; 'up' is the mirror image; 'downup'/'updown' additionally fill the leading missings from the first non-missing value; non-missing elements never change. Without max_fill, 'down' and 'up' leave missing exactly what has nothing to be filled from, 'downup' and 'updown' leave nothing missing if any element is present, and filling again changes no value.", "quantifier": "every missingness pattern, every direction, every max_fill", "why_tests_cant": "all patterns and max_fill values", "anchors": ["src/fill.c: vec_fill_missing, vec_fill_missing_down, vec_fill_missing_up, vec_fill_missing_down_with_max_fill, vec_fill_missing_up_with_max_fill"]}
{"id": "C18", "title": "Logical subscripts select exactly the TRUE positions", "statement": "A logical subscript of size n selects the positions that are TRUE in order, NA positions propagate NA / are removed / error according to `missing`; a size 1 subscript selects all, none or all-NA; any other size is an error.", "quantifier": "every logical subscript, every n and options", "why_tests_cant": "all inputs", "anchors": ["src/subscript-loc.c: lgl_as_location", "src/rlang/vec-lgl.c: r_lgl_which"]}
{"id": "C19", "title": "Positive integer subscripts are checked and kept in order", "statement": "With only positive or NA entries within bounds the location vector is the subscript itself; zeros are removed / error / kept and out-of-bounds entries error / removed / extended according to options; the result never contains an out-of-range location unless extension was requested. This holds for options and sizes given as R objects; nothing is read or written out of bounds, and a size that is negative or missing is an error.", "quantifier": "every integer subscript, every n, every combination of options", "why_tests_cant": "all inputs and option combinations", "anchors": ["src/subscript-loc.c: int_as_location, int_filter, int_filter_zero, int_filter_missing, int_filter_oob, int_check_consecutive, ffi_as_location"]}
{"id": "C20", "title": "Negative subscripts select exactly the complement", "statement": "A subscript of non-positive entries selects in increasing order exactly the positions not mentioned; mixing with positive or missing entries is an error; repeated or zero entries do not matter. Distinct locations i and their negation together locate every position exactly once, so c(vec_slice(x, i), vec_slice(x, -i)) is a reordering of x.", "quantifier": "every integer subscript and every n", "why_tests_cant": "all inputs", "anchors": ["src/subscript-loc.c: int_invert_location"]}
{"id": "C21", "title": "Character subscripts find the first position with that name", "statement": "Each non-missing string is located at its first occurrence among the names, in order; a missing string gives a missing location, is removed, or is an error according to `missing`; an unknown name, an empty string, or a vector without names is an error.", "quantifier": "every character subscript, every names vector", "why_tests_cant": "all inputs", "anchors": ["src/subscript-loc.c: chr_as_location"]}
{"id": "C22", "title": "Extension subscripts are accepted exactly when the new locations are consecutive", "statement": "With loc_oob='extend' the locations beyond n are accepted exactly when they are n+1..n+k in some order, each once; so without repetitions exactly when 1..n and the extending locations leave no hole, and a repeated extending location is always an error.", "quantifier": "every integer subscript and every n", "why_tests_cant": "all inputs", "anchors": ["src/subscript-loc.c: int_check_consecutive"]}
{"id": "C23", "title": "Unique name repair produces unique, non-empty, non-missing names", "statement": "vec_as_names(names, repair='unique') returns as many names as given, all distinct, none empty, none NA; names already valid and unique are returned unchanged.", "quantifier": "every character vector of names including NA, empty and '...'-suffixed names", "why_tests_cant": "all name vectors", "anchors": ["src/names.c: as_unique_names, as_unique_names_impl, any_has_suffix, suffix_pos, needs_suffix, is_unique_names"]}
{"id": "C24", "title": "Unique name repair is idempotent", "statement": "Repairing repaired names changes nothing: vec_as_names(vec_as_names(x, repair='unique'), repair='unique') is the same as one repair.", "quantifier": "every character vector of names", "why_tests_cant": "all name vectors", "anchors": ["src/names.c: as_unique_names_impl, suffix_pos"]}
{"id": "C25", "title": "vec_equal with na_equal = TRUE is an equivalence relation", "statement": "vec_equal(x, y, na_equal=TRUE) never returns NA and is reflexive, symmetric and transitive on elements of every atomic type, on data frame rows and on list elements.", "quantifier": "all triples of elements of every supported type", "why_tests_cant": "infinite value space incl. NaN payloads, signed zeros, nested lists and attributes", "anchors": ["src/equal.h: lgl_equal_na_equal, int_equal_na_equal, dbl_equal_na_equal, cpl_equal_na_equal, chr_equal_na_equal", "src/equal.c: equal_object_normalized, vec_equal_attrib, df_equal"]}
{"id": "C26", "title": "Equal elements hash equally", "statement": "If two elements are equal under na_equal = TRUE their hashes are the same, for every atomic type and data frame rows; this is what every hash based function relies on.", "quantifier": "all pairs of equal elements", "why_tests_cant": "value space of doubles incl. -0/0, NaN payloads; complex; rows", "anchors": ["src/hash.c: int_hash_scalar, dbl_hash_scalar, cpl_hash_scalar, hash_fill, df_hash_fill, hash_combine"]}
{"id": "C27", "title": "Row hashes mark incomplete rows as missing when na_equal = FALSE", "statement": "With na_equal = FALSE a data frame row gets the missing marker iff one of its columns is missing, so vec_match / vec_in propagate missingness for exactly the incomplete rows, whatever the column types and their order.", "quantifier": "all rows, all column type sequences", "why_tests_cant": "all sequences of column types", "anchors": ["src/hash.c: HASH_FILL_NA_PROPAGATE, raw_hash_fill_na_propagate, df_hash_fill", "src/dictionary.c: new_dictionary_opts, dict_is_incomplete"]}
{"id": "C28", "title": "vec_compare is a total order consistent with vec_equal", "statement": "vec_compare(x, y, na_equal=TRUE) returns -1, 0 or 1, is antisymmetric and transitive, and is 0 exactly when vec_equal says equal; data frames compare lexicographically. With na_equal=FALSE the result is NA iff a deciding element is missing.", "quantifier": "all triples of elements of every comparable type", "why_tests_cant": "infinite value space", "anchors": ["src/compare.h: int_compare_na_equal, dbl_compare_na_equal, chr_compare_na_equal", "src/compare.c: df_compare, df_compare_impl"]}
{"id": "C29", "title": "Missingness and completeness follow all / any", "statement": "vec_detect_missing on a data frame is TRUE iff every column (of every nested data frame) is missing in that row, hence TRUE for zero columns; vec_detect_complete is TRUE iff no column is missing; vec_any_missing and vec_first_missing agree with vec_detect_missing; vec_locate_complete lists the complete rows in order.", "quantifier": "every data frame (any columns, nested) and vector", "why_tests_cant": "all inputs", "anchors": ["src/missing.c: vec_detect_missing, df_detect_missing, vec_first_missing, vec_any_missing", "src/complete.c: vec_detect_complete, df_detect_complete", "src/complete.c: vec_locate_complete"]}
{"id": "C30", "title": "Integer ordering is a stable sorting permutation", "statement": "vec_order_radix(x) on integers returns a permutation of 1..n under which x is sorted in the requested direction with NA where na_value says, ties in original order, and the reported group sizes are the lengths of the tied blocks; independent of which algorithm (already sorted, insertion, counting, radix) the size and range select. A vector that is sorted has the order 1 to n, in particular a vector sliced by its order.", "quantifier": "every integer vector, both directions, both na_value settings", "why_tests_cant": "all inputs, all algorithm cut-offs", "anchors": ["src/order.c: int_order, int_order_chunk, int_order_chunk_impl, int_order_impl, int_adjust, int_compute_range, int_order_counting, int_order_insertion, int_order_radix, int_order_radix_recurse", "src/order-sortedness.c: int_sortedness, ord_resolve_sortedness"]}
{"id": "C31", "title": "The double to unsigned mapping used for ordering is strictly monotone", "statement": "For non-missing doubles the mapped key of x is smaller than that of y iff x < y numerically (infinities and denormals included), -0 and 0 map to the same key, direction reversal reverses the order, and NA/NaN map strictly below or above all numbers as requested.", "quantifier": "all 2^64 double bit patterns", "why_tests_cant": "2^64 patterns", "anchors": ["src/order.c: dbl_adjust, dbl_adjust_nan_identical, dbl_adjust_nan_distinct, dbl_map_to_uint64, dbl_flip_uint64"]}
{"id": "C32", "title": "Double ordering is a stable sorting permutation", "statement": "As C30 for double vectors with both nan_distinct settings. A vector that is sorted has the order 1 to n, in particular a vector sliced by its order.", "quantifier": "every double vector, direction, na_value, nan_distinct", "why_tests_cant": "all inputs", "anchors": ["src/order.c: dbl_order, dbl_order_chunk_impl, dbl_order_impl, dbl_order_insertion, dbl_order_radix_recurse"]}
{"id": "C33", "title": "Character ordering is a stable sorting permutation in C-locale", "statement": "As C30 for character vectors, compared bytewise, NA placed by na_value. A vector that is sorted has the order 1 to n, in particular a vector sliced by its order.", "quantifier": "every character vector, direction and na_value", "why_tests_cant": "all inputs", "anchors": ["src/order.c: chr_order, chr_order_internal, chr_order_radix_recurse, chr_order_insertion, chr_appearance_counting"]}
{"id": "C34", "title": "Data frame ordering is lexicographic, stable, and terminates without out-of-bounds access", "statement": "vec_order_radix(df) orders rows lexicographically by columns with per-column direction and na_value, ties in original order, for every sequence of column types. No other order is stable; rows that are sorted have the order 1 to n.", "quantifier": "every data frame", "why_tests_cant": "all column type sequences and tie structures", "anchors": ["src/order.c: df_order_internal, DF_ORDER_EXTRACT_CHUNK_CPL, vec_order_chunk_switch"]}
{"id": "C35", "title": "Ordering leaves every string's shared metadata as it found it", "statement": "After ordering or grouping character vectors every CHARSXP's TRUELENGTH is restored to its value before the call, also when the same string occurs several times.", "quantifier": "every set of strings and prior TRUELENGTH values", "why_tests_cant": "TRUELENGTH is shared process-wide state; any prior values and repetitions", "anchors": ["src/order-truelength.c: truelength_reset", "src/order-truelength.h: truelength_save_string, truelength_save_unique", "src/order.c: chr_mark_uniques, chr_mark_sorted_uniques"]}
{"id": "C36", "title": "vec_locate_sorted_groups partitions rows into sorted groups", "statement": "Keys are the distinct values in sorted order, locations of a group are exactly the rows equal to its key in increasing order.", "quantifier": "every vector", "why_tests_cant": "all inputs", "anchors": ["src/order.c: vec_locate_sorted_groups"]}
{"id": "C37", "title": "vec_rank implements the four tie methods", "statement": "For each element: 'min' is 1 + the number of smaller elements, 'max' the number of smaller-or-equal elements, 'dense' 1 + number of distinct smaller values, 'sequential' the position in the stable order; incomplete elements get NA when requested and do not affect other ranks. For every ranked element dense <= min <= sequential <= max, all from 1 to n; min, sequential and max are the same for an element tied with no other. The sequential rank is the inverse permutation of vec_order_radix().", "quantifier": "every vector with total preorder, every ties method and incomplete option", "why_tests_cant": "all inputs", "anchors": ["src/rank.c: vec_rank, vec_rank_min, vec_rank_max, vec_rank_sequential, vec_rank_dense"]}
{"id": "C38", "title": "vec_interval_groups merges exactly the overlapping intervals", "statement": "The resulting intervals are sorted, pairwise disjoint (and not abutting when abutting = TRUE), and cover exactly the same points as the inputs; vec_interval_locate_groups partitions the input rows by the merged interval that contains them. With missing = \"drop\" and abutting = TRUE the result depends only on the points covered: merging twice is merging once.", "quantifier": "every list of valid intervals (start < end), both abutting settings, any order", "why_tests_cant": "all interval lists", "anchors": ["src/interval.c: vec_interval_group_info"]}
{"id": "C39", "title": "vec_interval_complement covers exactly the uncovered points between bounds", "statement": "The result is a sorted list of disjoint non-empty intervals covering exactly the points of [lower, upper) not covered by an input interval (defaults: from the smallest start to the largest end). In bounds that all intervals are within, the complement of the complement is vec_interval_groups(missing = \"drop\").", "quantifier": "every list of valid intervals and optional bounds", "why_tests_cant": "all interval lists and bounds", "anchors": ["src/interval.c: vec_interval_complement"]}
{"id": "C40", "title": "vec_interval_locate_containers returns the maximal intervals", "statement": "Every input interval is contained in one of the located containers, no container is contained in another, and each container is an input row; missing intervals come last once. Slicing at the containers and merging gives the groups of all intervals, and the slices are their own containers.", "quantifier": "every list of intervals", "why_tests_cant": "all interval lists", "anchors": ["src/interval.c: vec_interval_locate_containers"]}
{"id": "C41", "title": "Common type of bare types is a commutative, associative, idempotent partial join", "statement": "vec_ptype2 on NULL, unspecified, logical, integer, double, complex, character, raw and list is idempotent, commutative and associative wherever both sides are defined, and NULL/unspecified are neutral.", "quantifier": "all triples of bare types", "why_tests_cant": "the law quantifies over all compositions; here the finite table is decided and then lifted to folds of any length", "anchors": ["src/typeof2.c: vec_typeof2_impl", "src/ptype2.c: vec_ptype2_opts_impl, vec_ptype2_switch_native"]}
{"id": "C42", "title": "vec_ptype_common does not depend on argument order", "statement": "For bare types, whether vec_ptype_common(...) succeeds and which type it returns is invariant under permutation of the arguments.", "quantifier": "all argument lists and permutations", "why_tests_cant": "unbounded lists and permutations", "anchors": ["src/ptype-common.c: vec_ptype_common_opts, ptype2_common", "src/arg-counter.c: reduce, reduce_impl", "src/ptype2.c: vec_ptype2_switch_native"]}
{"id": "C43", "title": "Casts between logical, integer and double are lossless or fail", "statement": "vec_cast succeeds only if every element is exactly representable in the target; on success converting back gives the same values with NA/NaN mapped to NA; otherwise a lossy cast error is raised. A value cast to one type can be cast on to another exactly if it can be cast there at once, with the same values.", "quantifier": "every vector, every element value incl. all doubles", "why_tests_cant": "all 2^64 doubles", "anchors": ["src/cast-bare.c: int_as_logical, dbl_as_logical, chr_as_logical, dbl_as_integer, lgl_as_double, int_as_double"]}
{"id": "C44", "title": "Combining and casting factors preserves labels", "statement": "The common factor levels are the union in order of first appearance; casting a factor to another level set preserves every element's label and fails exactly when a level is absent; casting character to factor preserves strings. The common type of three factors does not depend on the grouping, and both factors can be cast to their common type with all strings kept.", "quantifier": "all level sets and all codes", "why_tests_cant": "all inputs", "anchors": ["src/type-factor.c: fct_ptype2, levels_union, fct_as_factor_impl, chr_as_factor_impl, chr_as_factor_from_self, remove_na_levels"]}
{"id": "C45", "title": "Common type of data frames is the column union", "statement": "df ptype2 has the columns of x in order followed by the columns only in y, shared columns get the common type, the column set does not depend on argument order; df cast yields exactly the target columns and is lossy exactly when x has extra columns. If the common type of columns is associative so is that of data frames, a data frame is its own common type, and both data frames can be cast to their common type. The common type of bare data frames and tibbles is a tibble exactly if one of them is, whichever are combined first; a cast gives the class of the target, and both can be cast to the common type.", "quantifier": "all pairs of data frames with unique names", "why_tests_cant": "all inputs", "anchors": ["src/type-data-frame.c: df_ptype2, df_ptype2_match, df_ptype2_loop, df_cast_opts, df_cast_match, df_cast_loop", "src/type-tibble.c"]}
{"id": "C46", "title": "Assignment then slicing reads back the last value written", "statement": "After vec_assign(x, i, value), position p holds the value of the last occurrence of p in i, positions not mentioned are unchanged, NA locations write nothing, the original x is not modified when shared. Hence slicing twice is slicing by the sliced subscript, assigning a slice back changes nothing, the second of two assignments at the same locations wins, and assignments at disjoint locations commute.", "quantifier": "every vector, every location vector (repeats, NAs), every value", "why_tests_cant": "all inputs", "anchors": ["src/slice-assign.c: ASSIGN_INDEX, ASSIGN_COMPACT, vec_assign_opts", "src/slice.c: SLICE_SUBSCRIPT, SLICE_COMPACT_REP, SLICE_COMPACT_SEQ"]}
{"id": "C47", "title": "Chopping and unchopping are inverse", "statement": "list_unchop(vec_chop(x, indices), indices) = x whenever the (non-empty) list of indices covers 1..n as a permutation; vec_chop(x, sizes=) concatenates back to x and is accepted iff sizes are non-missing, non-negative and sum to n; list_unchop() in general puts at each position the value of its last location and a missing value where there is none; data frames are chopped column by column.", "quantifier": "every vector, every partition", "why_tests_cant": "all inputs", "anchors": ["src/slice-chop.c: vec_chop, indices_next, vec_as_chop_sizes", "src/c-unchop.c: list_unchop"]}
{"id": "C48", "title": "vec_interleave alternates the inputs", "statement": "Result element j*n + i is element j of input i after recycling; the generated indices are a permutation of 1..n*size.", "quantifier": "all numbers of inputs and sizes", "why_tests_cant": "unbounded", "anchors": ["src/slice-interleave.c: vec_interleave_indices", "R/slice-interleave.R: vec_interleave"]}
{"id": "C49", "title": "Slicing an array selects whole rows in every higher dimension", "statement": "vec_slice on an array with dims (d1,...,dk): out[i, j2..jk] = x[index[i], j2..jk] for all multi-indices, computed by strides without out-of-bounds access. Slicing an array twice is slicing it once by the sliced subscript, missing locations included.", "quantifier": "all dims, all location vectors incl. NA", "why_tests_cant": "all dims and indices", "anchors": ["src/strides.h: vec_strides, vec_steps, vec_strided_loc, vec_shape_index_increment", "src/slice-array.c: SLICE_SHAPED_INDEX"]}
{"id": "C50", "title": "vec_locate_matches returns exactly the matching pairs", "statement": "For every needle the reported haystack rows are exactly those satisfying the conditions (and selected by filter/multiple), in order of needle then haystack; needles without match and incomplete needles are reported by no_match / incomplete. Exchanging needles and haystack, with the conditions turned around, gives the same matches exchanged.", "quantifier": "all data frames, conditions, filters, multiple and incomplete options", "why_tests_cant": "all inputs", "anchors": ["src/match.c: df_locate_matches, df_locate_matches_recurse, int_locate_match, int_locate_lower_duplicate, int_locate_upper_duplicate, expand_compact_indices, compute_nesting_container_ids"]}
{"id": "C51", "title": "Joint ranks preserve all comparisons", "statement": "The integer ranks computed jointly for needles and haystack compare exactly as the original values do, within and across the two inputs.", "quantifier": "all pairs of vectors with a total preorder", "why_tests_cant": "all inputs", "anchors": ["src/match-joint.c: vec_joint_xtfrm"]}
{"id": "C52", "title": "integer64 proxies round-trip and preserve order", "statement": "Restoring the proxy of an integer64 vector gives the original values, and the two-column proxy compares lexicographically exactly as the 64-bit integers (NA as missing).", "quantifier": "all 2^64 values", "why_tests_cant": "2^64 values", "anchors": ["src/type-integer64.c: int64_unpack, int64_pack, vctrs_integer64_proxy, vctrs_integer64_restore"]}
{"id": "C53", "title": "Run-length ALTREP strings behave like the expanded vector", "statement": "Length, element access, subsetting and materialisation of the lazy rle string vector all agree with the expanded vector.", "quantifier": "all rle encodings, all indices", "why_tests_cant": "all inputs", "anchors": ["src/altrep-rle.c: altrep_rle_Length, altrep_rle_string_Elt, find_rle_index, altrep_rle_Extract_subset, altrep_rle_string_Materialize"]}
{"id": "C54", "title": "Common shape is a commutative, associative partial join", "statement": "The common shape of two arrays recycles every dimension after the first independently; it is symmetric, associative and fails exactly when two dims differ and neither is 1.", "quantifier": "all dimension vectors", "why_tests_cant": "unbounded dimensionality", "anchors": ["src/shape.c: vec_shape2_impl, vec_dimension2, vec_shape"]}
{"id": "C55", "title": "Slicing and assigning with any subscript stays within bounds", "statement": "With the options of vec_slice() and vec_assign(), every logical, integer, character or NULL subscript either signals an error or is converted to locations that are missing or in 1..n, so no subscript reads or writes outside the vector; vec_slice() returns the elements there, vec_assign() recycles the value to the number of locations, writes exactly those positions (last occurrence wins) and reports values of any other size.", "quantifier": "every subscript of any type, every size up to INT_MAX, every name vector, every value", "why_tests_cant": "memory safety over all subscripts", "anchors": ["src/slice.c: vec_slice_opts", "src/slice-assign.c: vec_assign_opts", "src/subscript-loc.c: vec_as_location_opts", "src/size.c: vec_check_recycle"]}
{"id": "C56", "title": "vec_c concatenates", "statement": "vec_c() (and list_unchop() without indices) returns the elements of the non-NULL inputs in order; only NULLs give NULL; concatenating in two steps gives the same result.", "quantifier": "every list of vectors of any sizes with total at most INT_MAX", "why_tests_cant": "all inputs", "anchors": ["src/c.c: vec_c_opts"]}
{"id": "C57", "title": "Equality, comparison and order proxies flatten data frames", "statement": "The proxy of a data frame of bare vectors has as columns exactly the vectors found in it from left to right, to any depth of nesting; it keeps the number of rows, a single column is returned unwrapped, and the width computed beforehand equals the number of columns written. vec_equal, vec_compare and the missingness functions on the proxy give the rowwise result on those vectors, whatever the nesting.", "quantifier": "every data frame, nested to any depth, including empty ones", "why_tests_cant": "infinitely many nestings, the buffer is sized by a separate traversal", "anchors": ["src/type-data-frame.c: df_flat_width, df_flatten_info, df_flatten, df_flatten_loop", "src/proxy.c: df_proxy, vec_proxy_unwrap"]}
{"id": "C58", "title": "vec_equal(na_equal = FALSE) is decided by the first missing or different column", "statement": "With na_equal = FALSE the result for a row is NA if, going through the (flattened) columns from left to right, a column with a missing value on either side is met before a column that differs; FALSE if a column that differs is met first; TRUE if no column is missing or differs.", "quantifier": "all pairs of vectors and (nested) data frames of atomic columns of matching types", "why_tests_cant": "infinite value space; the result depends on the order of columns", "anchors": ["src/equal.h: lgl_equal_na_propagate, dbl_equal_na_propagate, cpl_equal_na_propagate, chr_equal_na_propagate", "src/equal.c: df_equal, vec_equal_col_na_propagate"]}
{"id": "C59", "title": "vec_slice() keeps rows, columns, names and row names together", "statement": "Slicing a vector or a (nested) data frame with a subscript that vec_as_location() accepts never fails and gives, in every column at every depth, exactly the selected elements with their names; a missing location gives a missing element with an empty name. Row names follow the rows and are then made unique: they are always distinct, never missing and never empty, and the name of a row selected once is unchanged when it is valid, has no numeric suffix and is distinct from the others. A subscript that vec_as_location() rejects is the only error. vec_init() gives only missing rows.", "quantifier": "all bare vectors, lists and data frames nested to any depth with or without names and row names, all subscripts", "why_tests_cant": "infinite space of values, nesting shapes and subscripts", "anchors": ["src/slice.c: vec_slice_opts, vec_slice_unsafe, df_slice, slice_names, slice_rownames, vec_init", "src/proxy-restore.c: vec_bare_df_restore", "src/names.c: vec_as_unique_names"]}
{"id": "C60", "title": "data_frame() and df_list() lay out exactly the columns of their inputs", "statement": "With a common size (or the given .size), the result has, in order: nothing for NULL, the columns of an unnamed data frame (df_list(): only if .unpack) under their own names, and one column for every other input under its name, each recycled to the number of rows; the names are those names after the repair asked for, and data_frame() has no row names. Inputs of conflicting sizes, or of a size other than 1 and the given .size, are an error, and there is no other error.", "quantifier": "all lists of inputs (NULL, vectors, lists, nested data frames), names, sizes and repair options none, minimal, unique", "why_tests_cant": "infinite space of inputs; the output buffers are sized by a separate counting pass", "anchors": ["src/type-data-frame.c: ffi_data_frame, data_frame, ffi_df_list, df_list, df_list_drop_null, df_list_unpack", "src/size-common.c: vec_recycle_common_opts"]}
{"id": "C61", "title": "vec_cbind() binds the columns of its inputs and keeps the first row names", "statement": "vec_cbind() gives the columns that data_frame() gives for the same inputs: nothing for NULL, the columns of an unnamed data frame, one column for every other input (a named data frame is packed), recycled to the common size or .size, with the names repaired as asked. The row names are those of the first data frame that has some, recycled and made unique; without such an input the result is that of data_frame(). Incompatible sizes are the only error.", "quantifier": "all lists of inputs (NULL, bare vectors, lists, nested data frames), names, sizes, repair options none, minimal, unique", "why_tests_cant": "infinite space of inputs; the names are overwritten in place between the counting and the filling pass", "anchors": ["src/bind.c: vec_cbind, cbind_container_type, as_df_col, vec_as_df_col"]}
{"id": "C62", "title": "vec_rbind() gives the rows of its inputs in order, with their row names", "statement": "For inputs cast to their common data frame type, vec_rbind() gives one data frame whose columns, at any depth, are the columns of the inputs with rows put one after the other in order, whose row names are the inputs' row names merged with the names of the inputs by .name_spec and made unique (none if no input has any), and whose .names_to column repeats the name (or the position) of each input once for each of its rows. A name beside several rows or row names is an error without a .name_spec, and .names_to with a zapped .name_spec is an error.", "quantifier": "all lists of inputs (NULL, data frames with nested data frame columns, with and without rows and row names), names, name specifications and positions of the .names_to column", "why_tests_cant": "infinite space of inputs; buffers for names are allocated lazily at the first input with names, so the outcome depends on the order and sizes of the inputs", "anchors": ["src/bind.c: vec_rbind", "src/names.c: apply_name_spec, glue_as_name_spec", "src/slice-assign.c: df_assign, vec_proxy_assign_opts"]}
{"id": "C63", "title": "vec_c() combines elements, columns and names", "statement": "For inputs cast to their common type, vec_c() gives the elements of the inputs in order (for data frames, the columns at any depth). With .name_spec = zap() there are no names; otherwise the names are those of the inputs merged with their own by .name_spec, one after the other with \"\" for inputs without, repaired by .name_repair, and row names made unique; the names of the inputs do not count for data frames. The name of an input beside several elements or names is an error without a .name_spec.", "quantifier": "all lists of inputs (NULL, vectors, lists, nested data frames, empty ones), names, name specifications, repair options none, minimal, unique", "why_tests_cant": "infinite space of inputs; names are allocated lazily at the first input with names, also by inputs without elements", "anchors": ["src/c.c: vec_c_opts", "src/names.c: apply_name_spec, vec_set_names_impl", "src/slice-assign.c: vec_proxy_assign_opts"]}
{"id": "C64", "title": "vec_assign() writes values, columns and names at locations", "statement": "For a value cast to the type of x, vec_assign() changes x only at the given locations: there each element (in a data frame, each column at any depth) is that of the value recycled to the number of locations, the last one if a location is repeated; missing locations write nothing. Names and row names are written only if asked for, an unnamed x having \"\" before, and row names are made unique afterwards. Reading the written locations back gives the value if they are distinct. An invalid location, a NULL value or a value of another size than one or the number of locations is an error.", "quantifier": "all vectors, lists and nested data frames, subscripts, values, with and without names", "why_tests_cant": "infinite space of values, nesting depths and subscripts with repeated and missing locations", "anchors": ["src/slice-assign.c: vec_assign_opts, vec_proxy_assign_opts, df_assign, vec_proxy_assign_names"]}
{"id": "C65", "title": "list_unchop() puts elements, columns and names at their locations", "statement": "For inputs cast to their common type and indices of valid locations, list_unchop() gives a vector or data frame with as many elements as locations are given: each holds the last element put there by the inputs, each recycled to its locations, in every column at any depth, and a missing value if there is none. Names are those merged by name_spec, \"\" elsewhere, repaired by name_repair; there are none with zap(). If every element is located the result is determined. Different numbers of inputs and indices, invalid locations, inputs that cannot be recycled, and the name of an input beside several elements or names without a name_spec are errors. An input without names whose name is empty writes no names, so with overlapping locations its element can carry the name of an earlier input.", "quantifier": "all lists of inputs (NULL, vectors, lists, nested data frames), index lists with overlaps, gaps and missing locations, names, name specifications, repair options", "why_tests_cant": "infinite space of inputs; overlapping indices and partially named inputs interact", "anchors": ["src/c-unchop.c: list_unchop", "src/names.c: apply_name_spec", "src/slice-assign.c: vec_proxy_assign_opts, chr_assign"]}
{"id": "C66", "title": "outer names are pasted to inner names within the 4096-byte buffer", "statement": "outer_names() gives the names of the elements of an input: its own names if the outer name is absent, missing or empty; the outer name for a single unnamed element; the outer name numbered from 1 for several unnamed elements; otherwise the outer name, '..' and the inner name. r_chr_paste_prefix() writes only inside its buffer, on the stack up to 4096 bytes and allocated beyond, whatever the buffer held before, as long as the length of prefix, separator and longest name fits int; otherwise the sum of the lengths overflows int.", "quantifier": "all names, outer names and numbers of elements; all contents of the stack buffer", "why_tests_cant": "reads of stale buffer bytes and one-byte overruns depend on lengths around 4096; int overflow needs strings of two gigabytes", "anchors": ["src/names.c: outer_names", "src/names.c: r_chr_paste_prefix", "src/names.c: r_seq_chr", "src/names.c: r_chr_max_len"]}
{"id": "C67", "title": "vec_chop() on vectors and data frames with names, and back with list_unchop()", "statement": "vec_chop(x, indices) gives for each index the elements and names of x at its locations, in every column of a data frame at any depth; vec_chop(x, sizes) cuts x into consecutive runs of these sizes; vec_chop(x) gives one piece per element. Both indices and sizes, an invalid index, and sizes that are missing, negative or do not sum to the size of x are errors. If the indices have every location once, list_unchop() of the pieces at the same indices is x, names included at every depth, for data frames without row names; row names that look repaired are changed by the round trip.", "quantifier": "all vectors, lists and nested data frames with or without names, all index lists and sizes", "why_tests_cant": "infinite space of nested values and of permutations of their rows; chop_df writes the pieces column by column into shells", "anchors": ["src/slice-chop.c: vec_chop", "src/slice-chop.c: chop_df", "src/slice-chop.c: chop", "src/c-unchop.c: list_unchop"]}
{"id": "C68", "title": "Dates and date-times: common type, casts and constructors", "statement": "The common type of dates and date-times is Date if all are dates and otherwise POSIXct, even for POSIXlt inputs (a single input keeps its own type); its time zone is the first one that is not local, or local if all are. The result does not depend on the order or grouping of the inputs when at most one zone is not local; with two zones the order decides. Casting POSIXct to POSIXct keeps the instants and every other attribute, integers becoming the same doubles and NA staying NA, and takes over the time zone; casting to Date is lossless for exactly the instants that start a day in their zone, and is lossy otherwise. Casting from and to POSIXlt keeps the instants, read on the clock of the own time zone; casting a Date gives midnight on the clock of the time zone of the target, and back the same date. new_date() and new_datetime() take doubles only and keep nothing but names. A tzone attribute of length zero is an error.", "quantifier": "all lists of date and date-time types, all vectors of doubles or integers with any attributes, all time zones", "why_tests_cant": "all orders and groupings of any number of types; all doubles and all calendars", "anchors": ["src/type-date-time.c: tzone_union", "src/type-date-time.c: datetime_validate", "src/type-date-time.c: datetime_rezone", "src/type-date-time.c: posixct_as_date", "src/type-date-time.c: new_date", "src/type-date-time.c: new_datetime", "src/type-date-time.c: posixlt_as_posixlt", "src/type-date-time.c: posixlt_as_date", "src/type-date-time.c: date_as_posixct"]}
{"id": "C69", "title": "Which objects are subscripts", "statement": "vec_as_subscript() accepts exactly the objects that stand for a logical, integer or character vector of a type the options allow. Doubles stand for integers only if every element is missing or a whole number in the range of int, and then the integers have the same values; a fractional, infinite or too large double is an error, never a truncated location. A non-empty logical vector of missing values becomes missing integers or missing strings when logical subscripts are not allowed. NULL and symbols are subscripts only where their types are cast. Converting a converted subscript changes nothing, everything else is an error, and no input is undefined behaviour.", "quantifier": "all objects, all vectors of doubles, all combinations of the type options", "why_tests_cant": "all doubles (rounding, infinities, ends of the range) and all option combinations", "anchors": ["src/subscript.c: vec_as_subscript_opts", "src/subscript.c: dbl_cast_subscript", "src/subscript.c: obj_cast_subscript"]}
{"id": "C70", "title": "Names of locations", "statement": "vec_as_location() returns the same locations and the same errors for a subscript with names as for one without. The names of the locations are the names of the subscript's elements that the options do not drop, in the same order: for integers those not dropped as missing, zero or out of bounds; for logical vectors of full size those selected; a logical scalar repeats its one name for every location; for strings those not removed as missing. An inverted (negative) subscript has no names, and neither has one that came without.", "quantifier": "all subscripts of every type with names of the same size, all options, all sizes", "why_tests_cant": "all combinations of four options with any number of dropped elements of each kind", "anchors": ["src/subscript-loc.c: int_as_location", "src/subscript-loc.c: int_filter", "src/subscript-loc.c: int_filter_oob", "src/subscript-loc.c: lgl_as_location", "src/subscript-loc.c: chr_as_location"]}
{"id": "C71", "title": "Fields of records", "statement": "field() and `field<-` accept exactly the indices that denote a field: a number from 1 to the number of fields (fractions are rounded down) or the name of a field, the first one with that name in whatever encoding. Missing indices, numbers out of bounds, empty or unknown names, other sizes and types, and lists without names are errors. field() returns that field; `field<-` takes only a vector of the size of the record, replaces exactly that field, keeps names and all other fields, and field() then returns what was written.", "quantifier": "all records, all indices of every type, all doubles, all encodings", "why_tests_cant": "all doubles, all encodings of names and all positions of repeated or missing names", "anchors": ["src/fields.c: find_offset", "src/fields.c: equal_string", "src/fields.c: vctrs_field_get", "src/fields.c: vctrs_field_set"]}
{"id": "C72", "title": "Normalising encodings", "statement": "vec_normalize_encoding(x) returns x with every string translated to UTF-8, in elements and attributes at every depth; the structure, the tags of attributes and normalised strings stay. An object that something else refers to is never written to (copies are made instead), even when it occurs several times inside x. If every string is already normalised, x itself is returned and nothing is allocated; normalising twice is the same as once. It fails exactly when some string in x cannot be translated.", "quantifier": "all finite objects with any sharing, all encodings", "why_tests_cant": "all shapes of nested, attributed and shared objects, all placements of strings to be translated", "anchors": ["src/translate.c: obj_normalize_encoding", "src/translate.c: chr_normalize_encoding", "src/translate.c: list_normalize_encoding", "src/translate.c: attrib_normalize_encoding"]}
{"id": "C73", "title": "vec_split(), list_drop_empty() and checks of sizes", "statement": "vec_split(x, by) gives one key per distinct value of `by`, in order of first appearance, and beside each key exactly the rows of x where `by` equals it, in order, with names and at every depth of a data frame; different sizes are an error; putting the pieces back at the locations of the groups gives x. list_drop_empty(x) drops exactly the elements of size zero with their names, returns x itself if there are none, and reports the first scalar. list_check_all_size() and list_check_all_vectors() pass exactly the lists whose elements all have the size / are vectors.", "quantifier": "all vectors and data frames, all `by`, all hashes consistent with equality, all lists", "why_tests_cant": "all groupings, names and nestings, all positions of empty elements and scalars", "anchors": ["src/split.c: vec_split", "src/empty.c: list_drop_empty", "src/assert.c: vec_check_size", "src/assert.c: list_check_all_size", "src/assert.c: ffi_list_check_all_vectors"]}
{"id": "C74", "title": "Strategies of name repair", "statement": "vec_as_names(repair = ) accepts exactly functions, formulas which are functions, and character vectors whose first string names one of the seven strategies; unique_quiet and universal_quiet also silence messages. A function of the user gets the minimal names and its result is returned exactly if it is a character vector of the same size without missing values. check_unique returns names unchanged exactly if they are distinct and none is missing, empty, ... or ..1, ..2 etc.; names repaired by unique pass it. A validated argument stands for the same strategy, with the same quietness.", "quantifier": "all arguments, all functions including failing ones, all names", "why_tests_cant": "all names and all functions; the C parser of ..1 and the regular expression of R must agree on every string", "anchors": ["src/names.c: new_name_repair_opts", "src/names.c: vctrs_validate_name_repair_arg", "src/names.c: vec_validate_minimal_names", "src/names.c: vec_as_custom_names", "src/names.c: vec_as_names", "R/names.R: validate_unique"]}
{"id": "C75", "title": "Lazy character vectors", "statement": "For every sequence of calls of the methods of a lazy character vector and every behaviour of its function (errors, results of other types, different results at each call): methods which need the content fail with the error of the call of the function until a call returns a character vector; from then on every method answers as on that ordinary vector, including elements set later, and the function is not called again. Asking whether it is materialised, or for a pointer if there is one, never calls the function.", "quantifier": "all functions and all sequences of method calls", "why_tests_cant": "arbitrary interleavings of failing and succeeding calls with reads and writes", "anchors": ["src/altrep-lazy-character.c"]}
{"id": "C76", "title": "Argument tags in error messages", "statement": "The tag of an argument in an error message is the concatenation of the texts of its nodes from the outermost to the innermost: wrapped strings as they are, an evaluated string or nothing for NULL, an element by its name (`$name` if what it belongs to has a text, `name` otherwise) or else by its position (`[[i]]` or `..i`, from one). No byte is written outside of the buffer, however long the texts, enlarging the buffer ends, and no byte is read before it is written. A tag with a node that fails to evaluate, evaluates to no string, lies past the end or has too few names is the error of the outermost such node.", "quantifier": "all chains of nodes, texts, names, positions and buffer sizes reached by the growth", "why_tests_cant": "texts ending exactly at each limit of a growing buffer, at every depth", "anchors": ["src/arg.c", "src/utils.c"]}
{"id": "C77", "title": "Arguments named by an error of a reduction", "statement": "The common type or size of several inputs is the left fold over all inputs in order, those of splice boxes in place of the box. If it fails, it fails at the first input that cannot be combined with the result so far, and the error names that input and the input from which the result so far comes, each by its name in its own list or else by its position among all inputs, whatever boxes came before.", "quantifier": "all folded functions, inputs, boxes and names", "why_tests_cant": "all interleavings of boxes, of inputs that change the result and of failures; counters that are freed while still referred to", "anchors": ["src/arg-counter.c", "src/arg-counter.h", "src/size-common.c", "src/arg.c"]}
{"id": "C78", "title": "Restoring attributes", "statement": "vec_restore_default(x, to) gives x its own names or dimensions, its own row names if the target is a data frame, and all other attributes, the class and the S4 bit of the target. It works in place only if the caller owns x or x is not shared, and on a copy otherwise; it never writes to the attributes of the target or of any other object, even if x and the target are the same object or share their list of attributes. A target without attributes leaves x as it is. Restoring a data frame also gives it names and row names if it has none, and unique identifiers. Setting all attributes of an object gives it exactly the attributes of the list, whatever their order, removes the others, and treats sharing in the same way; attributes without names, and dimnames without dim, are errors.", "quantifier": "all heaps of attribute lists, all attributes, classes and ways of sharing", "why_tests_cant": "all orders of attributes and all aliasing between x, the target and other objects", "anchors": ["src/proxy-restore.c", "src/owned.h", "src/type-data-frame.c", "src/utils.c"]}
{"id": "C79", "title": "Kinds of objects and their sizes", "statement": "The class attribute alone decides the kind of an S3 object: eight class vectors are recognised as a whole, all others by their last class. Data frames are the lists whose last class is data.frame; obj_is_list() holds for bare lists, lists whose last class is list and lists of class AsIs alone, so no data frame is a list and every list is a vector. vec_size() is the number of rows described by the row names, the first dimension or the length of the proxy, and an error for scalars. list_sizes() gives the sizes of all elements up to 2^31 - 1; list_all_size() is decided by the first element of another size or that is a scalar. A vector is unspecified if it has that class or is a bare logical vector of missing values only.", "quantifier": "all objects, class vectors, attributes and proxy methods", "why_tests_cant": "all class vectors of every length, all combinations of attributes and proxies", "anchors": ["src/utils-dispatch.c: class_type", "src/type-info.c: vec_base_typeof, obj_is_list, obj_is_vector, vec_typeof", "src/unspecified.c: vec_is_unspecified", "src/size.c: vec_size, list_sizes, list_all_size, df_size", "src/type-data-frame.c: rownames_size"]}
{"id": "C80", "title": "new_data_frame()", "statement": "new_data_frame(x, n, ..., class) has the columns of x, the class given followed by data.frame, the names in ... or else those of x, or empty names for no columns, the row names in ... or else as many rows as n, or as x has row names, or as the first column, and no other attributes than those in .... Row names override n even if n is invalid. The result is a data frame but no list whatever the class, and its size is the number of rows. A class in ..., an x that is no list, an invalid n and an invalid class are errors.", "quantifier": "all lists, sizes up to 2^31 - 1, classes and attributes", "why_tests_cant": "all combinations of given and inherited attributes", "anchors": ["src/type-data-frame.c: ffi_new_data_frame, df_size_from_n, c_data_frame_class, new_compact_rownames", "src/size.c: df_raw_size"]}
{"id": "C81", "title": "Native dispatch on pairs of classes", "statement": "If at least one of two inputs is an S3 object, native dispatch identifies the pair by the unordered pair of their types or groups of classes, and tells which input comes first. A common type is found natively exactly for character vectors with factors, factors or ordered factors among themselves, dates and date-times, and data frames with tibbles, in either order, and the function called is the one for that type. A native cast is found for the same pairs, takes an input like x and gives a result like the target. Whenever a common type is found natively both inputs have a native cast to it.", "quantifier": "all pairs of types and classes", "why_tests_cant": "20736 pairs of types and classes in two tables of 203 entries", "anchors": ["src/typeof2-s3.c", "src/typeof2-s3.h", "src/ptype2-dispatch.c", "src/cast-dispatch.c", "src/cast.c"]}
{"id": "C82", "title": "Lookup of methods", "statement": "The name of a method is the generic, a dot and the class; it is built in a fixed buffer that is never overrun, and a name that does not fit is an internal error. Single dispatch finds the method of the first class that has one, in the global environment or else in the table, whatever is left in the buffer from earlier lookups; values that are not functions are skipped. Double dispatch uses the first class of both inputs only and looks in the global environment, the table of vctrs and the table that goes with the single-dispatch method of the first class, in this order. Pairs of classes whose first has no dot in its name never share a method.", "quantifier": "all names, classes, environments, tables and contents of the buffer", "why_tests_cant": "all lengths of names around the size of the buffer, all classes and contents of environments", "anchors": ["src/utils.c", "src/ptype2-dispatch.c", "src/cast.c"]}
{"id": "C83", "title": "Foreign columns of combined data frames", "statement": "When data frames are combined, a column of a foreign class with a `c()` method is what `c()` makes of the inputs' columns of the same name, and the other columns are the elements of the inputs one after the other, in the order given by the locations if there are any. Within nested data frames too, `c()` gets the inputs' columns at the same place as the column of the type. Nothing is read outside the columns of an input.", "quantifier": "all lists of data frames and NULL with distinct column names, all c() methods, all nestings", "why_tests_cant": "all orders of columns, columns absent from some inputs, all nestings and locations", "anchors": ["src/c.c", "src/c-unchop.c", "src/bind.c", "src/utils.c"]}
{"id": "C84", "title": "Proxies for equality, comparison and order", "statement": "The proxy for order of an object with a class comes from the first method of the generics for order, comparison and equality, or else from vec_proxy(); the one for comparison from the first of comparison and equality. If that is a data frame, its columns are replaced by their proxies for the same generic. The result is always a vector or a data frame of vectors with more or less than one column, and it has as many rows as the object if the methods keep the number of rows. The proxy of nested data frames of bare vectors consists of all the vectors in them. If vec_restore() gives objects of each class back from their proxies, restoring a recursive proxy (as vec_c(), list_unchop() and vec_rbind() do) gives nested objects back.", "quantifier": "all objects and all methods", "why_tests_cant": "all combinations of methods, types, dimensions and nestings", "anchors": ["src/proxy.c", "src/type-data-frame.c", "R/type-bare.R", "src/proxy-restore.c"]}
{"id": "C85", "title": "Growable vectors", "statement": "The vectors that vec_unique(), vec_interval_groups(), vec_interval_locate_containers() and vec_locate_matches() build element by element hold exactly the elements pushed to them, whatever the number of reallocations, and reading and overwriting elements in between acts on the elements pushed so far; no access is out of bounds or to memory that has not been written.", "quantifier": "all numbers of elements, all initial capacities of at least 1 and all sequences of pushes, reads and writes", "why_tests_cant": "sequences of uses and sizes beyond any number of doublings, among them sizes over 2^30", "anchors": ["src/vctrs.h", "src/growable.c", "src/rlang/dyn-array.c", "src/rlang/dyn-array.h", "src/dictionary.c"]}
{"id": "C86", "title": "Foreign classes are combined and unchopped with c() without losing or moving elements", "statement": "For vectors of a class without vctrs methods but with a c() method, vec_c() gives the elements of the inputs one after the other, NULL inputs contributing nothing and unspecified inputs contributing as many missing values as their size; list_unchop(x, indices) puts the elements of x[[i]] (recycled to indices[[i]]) at the locations indices[[i]], the last location winning, and missing values elsewhere, exactly as for native types. A name specification and a different number of elements and indices are errors.", "quantifier": "all lists of inputs (of the class, NULL, or unspecified), all indices, all c() methods that concatenate", "why_tests_cant": "The defects need the conjunction of an empty chunk with an unspecified one, or of a NULL element with a non-empty index, in the fallback path for foreign classes; the existing tests use neither.", "anchors": ["src/c-unchop.c:218-303", "src/size.c:256-281", "src/c.c:306-338", "R/c.R:83-128", "src/unspecified.c:38-74", "src/slice.c:211-223"]}
{"id": "C87", "title": "A collation function replaces the strings to order by, and only them", "statement": "With `chr_proxy_collate`, vec_order_radix(), vec_locate_sorted_groups() and vec_rank() give what they give for the same vector with every character vector in it, at any depth of data frame columns, replaced by the function's result; everything else, including the settings per column, is unchanged. Without a function nothing is replaced. If for any of the character vectors the function fails, or gives something other than a character vector or one of a different length, the result is an error.", "quantifier": "All vectors and data frames (nested), all functions (failing, of wrong type or length), all settings of direction and na_value, all sizes.", "why_tests_cant": "Tests use tolower() on a column or two; the first character column is found in one loop and treated in a second one that starts there, and columns of nested data frames are reached only through the flattened proxy.", "anchors": ["src/order-collate.c:19-112", "src/order.c:201-304", "src/order.c:362-484", "src/rank.c:81-99"]}
{"id": "C88", "title": "Names that are set are read back, and nothing else changes", "statement": "vec_set_names(x, names) with a character vector of the size of x gives an object whose vec_names() are these names (made unique for a data frame), with the same elements, columns, dimensions, names of the other dimensions, size and other attributes; NULL removes the names only; anything that is not NULL or a character vector of the right size is an error; the argument itself is not modified. Unique repair gives unique names for every character vector.", "quantifier": "All vectors, arrays and data frames of any size with or without existing names, all names (missing, empty, duplicated, with or without dimensions), vector or proxy, owned or not.", "why_tests_cant": "The behaviour depends on the combination of existing dimnames, row names of three kinds, ownership and the shape of the names themselves; tests use plain names on small vectors and never a matrix of names.", "anchors": ["src/names.c:137-168", "src/names.c:235-343", "src/names.c:702-841", "src/owned.h:15-21"]}
{"id": "C89", "title": "Functions on lists treat every cell as an element", "statement": "list_sizes(x) gives one size per element of the list x, list_all_size(x, n) is TRUE exactly if all of them are n, list_drop_empty(x) removes exactly the elements of size zero, and list_unchop(x, indices = ) writes every element at its locations; this holds for every object that obj_is_list() accepts, including lists with dimensions, and no memory outside of the list is read.", "quantifier": "All lists of any length with any dimensions, with elements of any sizes; all indices, with or without dimensions.", "why_tests_cant": "Tests use lists without dimensions, where the number of rows and the number of cells coincide; the difference only shows for arrays of lists, including those with rows but no cells.", "anchors": ["src/type-info.c:97-113", "src/size.c:60-152", "src/empty.c:9-52", "src/c-unchop.c:13-184", "src/slice-chop.c:479-513"]}
{"id": "C90", "title": "Options are the documented ones, or an error", "statement": "The options condition, filter, incomplete, no_match, remaining, multiple and relationship of vec_locate_matches(), ties of vec_rank() direction and max_fill of vec_fill_missing(), missing, negative, oob and zero of vec_as_location(), logical, numeric and character of vec_as_subscript(), .vary of vec_expand_grid(), incomplete of vec_rank(), direction and na_value of orders, missing of intervals and the flags nan_distinct, abutting, na_equal and .unpack accept exactly the documented strings and integers, with the documented meaning; any other R object is an error. condition and filter take one string, or one per column. No memory outside of the option is read.", "quantifier": "All R objects given as options: NULL, character vectors of any length with any dimensions and missing values, logical, integer and double vectors including all doubles, other objects; any number of columns.", "why_tests_cant": "Unbounded sets of strings, numbers and shapes; tests try a few wrong values and never an array.", "anchors": ["src/match.c:1261-1565", "src/rank.c:208-224", "src/fill.c:207-265", "src/subscript-loc.c:550-627", "src/subscript.c:214-282", "src/expand.c:124-138", "src/order.c:4685-4701", "src/rlang/vec.h:309-345", "src/utils.c:1195-1202", "src/order.c:4607-4683", "src/interval.c:913-925"]}
{"id": "C91", "title": "c() is used exactly for inputs of one class without methods of vctrs, in any order", "statement": "vec_c() and list_unchop() combine their inputs with base c() exactly if the inputs other than NULL are vectors of one class, that is also the class of a .ptype that was given, that has a method of c() and no method of vec_ptype2(), and that is not a class of vctrs or treated natively. NULLs and the order of the inputs do not matter.", "quantifier": "All lists of R objects of any types, classes and attributes, all tables of S3 and S4 methods, any .ptype.", "why_tests_cant": "Unbounded sets of classes and tables of methods; tests register a handful of classes and give them one type each.", "anchors": ["src/c.c:199-304", "src/utils.c:647-739"]}
{"id": "C92", "title": "Prototypes have no rows, keep the type and are their own prototypes", "statement": "vec_ptype() of a vector without class, an array, an unspecified vector, or a data frame or tibble of any depth of these has size zero, the same base type, shape, columns, class and other attributes, depends on nothing else, and is its own vec_ptype(). vec_ptype_finalise() of it turns unspecified vectors at any depth into logical vectors, changes no other type, and changes nothing when applied again. For data frames of another class both return what the class's method for vec_restore() makes of that data frame.", "quantifier": "All base types, lengths, dimensions, attributes in any order, numbers of columns and depths of nesting; any methods of other classes.", "why_tests_cant": "Unbounded nesting of data frames and sets of attributes; tests look at a few flat prototypes.", "anchors": ["src/ptype.c:13-180", "src/utils.c:320-378", "src/proxy-restore.c:62-229"]}
{"id": "C93", "title": "Slicing, chopping and assigning arrays keeps names of rows with their rows", "statement": "`vec_slice()` of an array without a class gives the rows at the locations of the subscript, missing ones as missing values, for every cell of the other dimensions; each row keeps its name, a missing location has an empty name, an array without rows has no names of rows, the names of the other dimensions and the other attributes are unchanged. `vec_chop()` gives exactly the slices at its indices, at consecutive runs for `sizes`, or at each row, in order, also for vectors and for objects with a class and errors included. Assignment writes at each location the row last given for it and leaves all other rows alone; if names are assigned and the value has names of rows, rows that are assigned to take them and other rows keep theirs, or get empty ones if there were none; otherwise names do not change.", "quantifier": "All arrays of any number of dimensions without a class that R can make and whose cells can be counted by an int, all valid subscripts, indices and sizes, all methods of classes.", "why_tests_cant": "The names are sliced or assigned by other code than the cells and in three different places; agreement for all dimensions, subscripts with missing or repeated locations and empty dimensions cannot be enumerated.", "anchors": ["src/slice.c:284-368", "src/slice.c:262-269", "src/slice-chop.c:171-475", "src/slice-assign.c:145-187", "src/slice-assign.c:390-414", "src/slice-assign-array.c:67-226"]}
{"id": "C94", "title": "Sizes given as arguments are whole numbers from 0 to 2^31 - 1", "statement": "`vec_init(n = )`, `vec_size_common(.size = )`, `vec_recycle_common(.size = )` and the other functions that take a size accept exactly one whole number between 0 and 2^31 - 1, as an integer, a double or an object that casts to double, and use exactly that number; anything else (several numbers, missing values, fractions, negative or larger numbers, other types) is an error and nothing is undefined. `vec_init()` then gives that many missing rows, `vec_size_common()` that number, and `vec_recycle_common()` inputs of that size: those that have it unchanged, those of size 1 repeated, `NULL` unchanged, and an error if there is any other. `vec_check_size(size = )` and `list_check_all_size(size = )` pass, and `list_all_size(size = )` is true, exactly if one whole number is given that is the size of the vector, or of all elements; anything else is an error.", "quantifier": "All R objects, all doubles by their 64 bits, all lists of inputs, all vectors and data frames.", "why_tests_cant": "There are 2^64 doubles and the boundary cases of the conversion to a signed integer depend on all of them; the tests try eight values.", "anchors": ["src/size.c:282-381", "src/size-common.c:6-53", "src/size-common.c:125-184", "src/slice.c:427-451", "src/rlang/rlang.c:36-67", "src/assert.c:22-43", "src/assert.c:99-138", "src/size.c:115-150"]}
{"id": "C95", "title": "A vector given to vec_rbind() is one row, and its names are the names of columns", "statement": "`vec_rbind()` turns each input on its own into a data frame: a vector of size n (or an array of one dimension) becomes one row with n columns, column j being element j without names and dimensions but with the other attributes; the column names are the names of the elements (those of the first dimension for an array, empty names if there are none) repaired as `.name_repair` says, and the call fails exactly if they cannot be repaired. A matrix becomes what as.data.frame() makes of it, named by its repaired column names; a data frame keeps everything but its names; `NULL` and unnamed `NA` are left; an array of three or more dimensions is an error. Only \"unique\", \"universal\", \"check_unique\" and functions are accepted as `.name_repair`.", "quantifier": "All vectors without a class and with methods of a class, all names, all strategies of name repair and all functions given by the user, all lists of inputs.", "why_tests_cant": "Tests bind a few short vectors with one or two strategies; the names of one-dimensional arrays, the order of removing names and dimensions and the errors of user functions are combinations they do not reach.", "anchors": ["src/bind.c:8-63", "src/bind.c:256-313", "src/bind.c:603-633", "src/type-data-frame.c:960-976", "src/utils.c:958-965", "src/names.c:178-185"]}
{"id": "C96", "title": "vec_cast_common() gives every input the common type and keeps all values", "statement": "For logical, integer and double vectors and `NULL`, `vec_cast_common(...)` without `.to` never fails (unless the option vctrs.no_guessing forbids it): if some input is not `NULL`, every vector in the result has the largest type among the inputs (double if any is double, else integer if any is integer, else logical), with elements that stand for the same values in the same order, missing values staying missing; `NULL` stays `NULL`; the names of the list are kept; if all inputs are `NULL`, the list is returned unchanged. With `.to` every vector gets that type with the same values, or the call is an error, and then some input holds a value that does not exist in that type. Rearranging the inputs rearranges the results, and casting the results again changes nothing.", "quantifier": "All lists of logical, integer and double vectors and `NULL`, of any length and with any elements, all names, all types given as `.to`.", "why_tests_cant": "Tests cast a few pairs of short vectors; the order of many inputs, with `NULL` and vectors of only missing values among them, and all bit patterns of doubles cannot be enumerated.", "anchors": ["src/cast.c:20-74", "src/cast.c:247-283", "src/ptype-common.c:43-69", "src/cast-bare.c:4-183"]}
{"id": "C97", "title": "Lists are ordered, ranked and matched by where equal elements are first seen", "statement": "`vec_order()` of a list is the stable order in which elements come by the position of the first element equal to them, ascending or descending, with `NULL` the smallest or the largest. For two lists, the joint ranks behind `vec_locate_matches()` are integers other than `NA` that compare as the positions at which equal elements are first seen in the first list followed by the second, `NULL` being the smallest; so equal elements have equal ranks within and across the lists, and different ones do not. `vec_locate_matches()` on two lists reports with condition `==` exactly the rows of the haystack that hold an equal element, with the other conditions those seen earlier or later, then what `filter`, `multiple`, `incomplete`, `no_match`, `remaining` and `relationship` ask for. `NULL` matches only `NULL`. If the two lists together have more elements than an integer can count, ranking them is an error.", "quantifier": "All lists with elements of any type whose equality is an equivalence and whose hash respects it, all options (with `==` and a `NULL` to be reported as incomplete only if it is reported as an element without a match is).", "why_tests_cant": "Tests match a few short lists; the relation between ranks of elements in two lists of any length, and its combination with all options of matching, cannot be enumerated.", "anchors": ["src/match-joint.c:76-197", "src/match-joint.c:280-317", "src/match.c:131-257", "src/complete.c:51-70", "src/missing.c:267-276", "src/order.c:201-210", "R/type-bare.R:412-424"]}
{"id": "C98", "title": "Functions that sort and functions that hash agree on which values are the same", "statement": "The groups of `vec_locate_sorted_groups(x, nan_distinct = TRUE)` are the values that the functions on dictionaries tell apart: its keys are the locations of `vec_unique_loc(x)` in another order, their number is `vec_unique_count(x)`, and location `i` is in the group with key `k` exactly if `vec_duplicate_id(x)[i]` is `k`; this is whatever `direction` and `na_value` are. `vec_locate_matches(needles, haystack, condition = \"==\", incomplete = \"compare\", multiple = \"first\", nan_distinct = TRUE)` reports every needle once, with the location that `vec_match(needles, haystack)` gives; with `incomplete = NA` it reports that of `vec_match(na_equal = FALSE)`.", "quantifier": "All vectors, and data frames with columns that can be sorted, all rows, directions, places of missing values and hash addresses of strings; for matching, all needles and haystacks of the same types. Complex columns are excluded, where it fails.", "why_tests_cant": "The two families share no code: one is a radix sort with per-type keys, the other hashing with per-type equality. That they have the same notion of equal values for all inputs, including missing values, NaN, signed zeros and ties in several columns, is beyond comparing some of their results.", "anchors": ["src/order.c: vec_locate_sorted_groups, cpl_order, cpl_normalise_missing", "src/match.c: vec_locate_matches", "src/dictionary.c: vctrs_unique_loc, vctrs_n_distinct, vctrs_id, vec_match_params", "src/equal.h", "src/hash.c"]}
{"id": "C99", "title": "Comparison agrees with order and rank", "statement": "For all locations i and j of a vector or data frame, `vec_compare(vec_slice(x, i), vec_slice(x, j), na_equal = TRUE)` is the sign of `vec_rank(x, ties)[i] - vec_rank(x, ties)[j]`, for ties \"min\", \"max\" and \"dense\" and whatever `nan_distinct` is. In the order of `vec_order(x)`, every row compares as less than or the same as the next one, and is the same only if it is also before it in `x`. `vec_rank(x, ties = \"sequential\")` is the inverse of the permutation `vec_order(x)`, for all directions and places of missing values.", "quantifier": "All vectors of logical, integer, double or character type and data frames of these to any depth, all locations with repetition, all options. Double vectors with both NA and NaN are excluded, where it fails.", "why_tests_cant": "vec_compare() compares elements, vec_order() and vec_rank() are radix sorts over transformed keys; tests compare them on a few vectors, and have not noticed that they disagree on NA and NaN.", "anchors": ["src/compare.c: vec_compare, df_compare_impl", "src/compare.h: dbl_compare_na_equal, chr_compare_na_equal", "src/rank.c: vec_rank", "src/order.c: vec_order, dbl_adjust"]}
